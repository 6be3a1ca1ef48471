# A machine-checked model of pelicun in Lean 4

This file explains what is modelled and how, what is proved, what is trusted, and where the code turned out *not* to
have the property a user would rely on.

* `properties.jsonl` – the properties, in words.
* `lean/Verif/Model/*.lean` – the model: functional transcriptions of the Python functions; every definition cites the
  file and lines it models and says where it simplifies.
* `lean/Verif/Spec/*.lean` and the definitions at the beginning of the `Props` files – small, independent vocabulary
  used to *state* properties.
* `lean/Verif/Lemmas/*.lean` – helper lemmas.
* `lean/Verif/Props/*.lean` – the property theorems `Cxx_...`, each with a concrete case beside it (`example` or a
  witness theorem) that meets its hypotheses.
* `MANIFEST.json` – property → theorem names and status.
* `seeded/LOG.jsonl` – the log of the wrong programs that the theorems were tested against.

## 1. Modelling conventions

* Python exceptions are values: functions that can raise return `Except PyErr α`, with the type of the exception.  The
  text of a message is not modelled.
* In-place mutation is modelled by returning the new value.  Where *aliasing* matters to a property (shared module-level
  dictionaries, arrays that are changed in place) the model has an explicit store.
* A Python `float` is an exact rational `ℚ`, an element of an arbitrary ordered field, or a real number where `exp` and
  `log` matter.  NaN and infinities are added explicitly (`Option`, `PyFloat`, `Ext`) where the modelled code can produce or
  compare them.  Rounding and overflow are not modelled: the theorems are about exact arithmetic.
* A Python `str` is a list of characters (`Str`).
* A `dict` is an association list with first-match lookup and in-place replacement, in insertion order.
* pandas tables are lists of labelled rows or columns; only the label-based operations that the code uses (mask, group by
  with sum/max/first, `sort_index`, `reindex`, `concat`, `drop_duplicates`) are modelled, as ordinary list functions.
* The random generator, optimisers, neighbour search, expression evaluation (numexpr), the normal distribution function
  and its inverse are parameters of the model; what is assumed of them is a hypothesis of the theorem that uses it.  For the
  abstract distribution functions, `Lemmas/UQInstances.lean` constructs instances, so that the hypotheses can be met.
* Iteration over Python sets is in an unknown order: where it matters the order is a parameter and the theorems hold for
  every order, or say how the result depends on it.

## 2. Trusted base

* Lean's kernel (4.33.0).  Mathlib is used as a library of proved theorems and tactics; all proofs are checked by the
  kernel.  There is no `sorry`, `admit`, `native_decide` or `bv_decide`; `decide +kernel` (evaluation by the kernel itself) is
  used on closed terms only.
* Axioms: every theorem depends on a subset of `propext`, `Quot.sound` and `Classical.choice`; the project has no axiom of
  its own.  `vcheck` reports the axioms of all theorems.
* The model itself: that the Lean definitions say what the cited Python lines do.  This includes the reading of the Python,
  numpy and pandas functions in `Model/PyStr.lean`, `PySort.lean`, `PyNum.lean` and `Interp.lean` (string splitting, stable sorting,
  `float(s)`, `int(s)`, `np.interp`) and of the pandas operations named above.  Nothing was executed: there is no
  test of the model against the running code.
* The English statements in `properties.jsonl` and the specifications in the `Spec` and `Props` files.

## 3. What is modelled

| code | functions | model |
|------|-----------|-------|
| `base.py` | `Options.seed`, `Options.rng` | RngStream |
| `base.py` | `update_vals`, `merge_default_config`, `get`, `update`, `is_unspecified`, `is_specified` | Config |
| | `convert_to_SimpleIndex`, `convert_to_MultiIndex`, `dedupe_index` | Labels |
| | `Logger` (warnings) | Logger |
| | `convert_units`, `parse_units`, `dict_raise_on_duplicates`, `invert_mapping`, `multiply_factor_multiple_levels` | Units, LossScale |
| | `stringterpolation` | LossLf |
| `uq.py` | `scale_distribution`, inverse transforms of all random variables, distribution functions | UQDist, Weibull |
| `uq.py` | `RandomVariableSet.apply_correlation` over the real numbers; the results of `cholesky` and `svd` are arguments that are as scipy promises | Copula, CorrSample |
| `uq.py` | `fit_distribution_to_sample`, `_get_theta`, `_get_limit_probs`, `_get_std_samples`, `_get_std_corr_matrix`, `_neg_log_likelihood` for one variable without censored samples | Fit |
| `uq.py` | `fit_distribution_to_percentiles`, `_OLS_percentiles` | FitPercentile |
| `uq.py` | `mvn_orthotope_density`, `RandomVariableSet.orthotope_density`, `Rho` | Orthotope |
| `uq.py` | `_prepare_theta_and_truncation_limit_arrays`, `constant_parameters`, arrays in `cdf` and `inverse_transform`, constructors of normal variables | UQRows |
| `model/demand_model.py` | `DemandModel.calibrate_model` from the fit on; normal variables of `_create_RVs` | DemandFit |
| | anchors, `RandomVariableSet`, `RandomVariableRegistry`, `generate_sample` | UQRegistry |
| `file_io.py` | `save_to_csv`, `load_data` (orientation 0) | FileIO |
| | `substitute_default_path` | DefaultPath |
| `model/pelicun_model.py` | `_get_locations`, `_get_directions` | LocDir |
| | `_convert_marginal_params` (one row, default arguments) | Asset |
| `model/asset_model.py` | `load_cmp_model` | Asset |
| | `save_cmp_sample`, `load_cmp_sample` | Samples |
| | `generate_cmp_sample`, `_create_cmp_RVs` | DemandGen |
| `model/demand_model.py` | `load_sample`, `save_sample`, `estimate_RID`, `expand_sample`, `clone_demands` | DemandRid, DemandSample |
| | `estimate_RID_and_adjust_sample` | RidAdjust |
| | `calibrate_model` up to the fit | DemandCalib |
| | `generate_sample`, `_create_RVs`; which data `save_model` and `load_model` keep | DemandGen |
| | `_get_required_demand_type`, `_assemble_required_demand_data`, `_verify_edps_available` | DemandReq |
| `model/damage_model.py` | parameter loading and checks | DmgParams |
| | `_get_pg_batches` | DmgBatch |
| | `_create_dmg_RVs`: states of limit states, capacity scaling | DmgRVs |
| | `obtain_ds_sample`, `_generate_dmg_sample`, `_create_dmg_RVs`: random variables of all blocks, sampling, batches side by side | DmgSample |
| | `_evaluate_damage_state` | DmgEval |
| | `prepare_dmg_quantities`, `probabilities`, `complete_ds_cols` | DmgQty |
| | damage process (`perform_dmg_task` and the order of the tasks) | DmgTasks |
| | `calculate` from the drawn states to the damage sample | DmgCalc |
| | `save_sample`, `load_sample` | Samples |
| `model/loss_model.py` | loss map, parameter loading and checks | LossParams |
| | consequences of damage states with `_calc_median_consequence` | LossDs |
| | `RepairModel_DS._create_DV_RVs` and the sample of deviations in `RepairModel_DS.calculate` | LossDev |
| | `RepairModel_LF._create_DV_RVs` (normal and lognormal) and the sample of deviations in `RepairModel_LF.calculate` | LossLfDev |
| | `LossModel.load_model_parameters`, `DamageModel.load_model_parameters` called repeatedly, `convert_loss_parameter_units`, `drop_unused_damage_states`, `convert_damage_parameter_units` | ParamUnits |
| pelicun_model.py | `_convert_marginal_params` with units of the argument and curves | ParamUnits |
| Python | `f'{x:g}'` of a rational number | FmtG |
| loss_model.py | `LossModel.calculate` over repeated calls | LossCalc |
| demand_model.py | marginals in `DemandModel.save_model`, `load_model`; `_convert_marginal_params` in both directions (pelicun_model.py) | DemandSave |
| tools/DL_calculation.py | `convert_df_to_dict`, `_create_json_files_if_requested` (texts of a CSV file as read by pandas) | ToolJson |
| base.py | `describe` over the real numbers | Stats |
| tools/regional_sim.py | `_calculate_losses_hazus_eq`, `_calculate_losses_general`, `unique_list` | RegLoss |
| tools/regional_sim.py | damage states in `process_buildings_chunk` | RegDmg |
| tools/DL_calculation.py | `_result_summary`, `_asset_save`, `_loss_save` | ToolSave |
| tools/dlml.py | `check_dlml_version`, `_resolve_version_to_commit_sha`, version entries of the cache in `download_data_files` | DlmlCheck |
| | consequences of loss functions | LossLf |
| | consequence scaling | LossScale |
| | aggregation, exclusive replacement, thresholds | LossAgg |
| | loss combinations | LossComb |
| | `save_sample`, `RepairModel_DS.load_sample`, `sample` | Samples |
| `assessment.py` | `calc_unit_scale_factor` | Asset |
| `base.py`, `assessment.py` | `Options.__init__`, `load_default_options`, `AssessmentBase.__init__` (options and units) | Options |
| `tools/regional_sim.py` | `unique_list`, component model of the buildings in `process_buildings_chunk` | RegAsset |
| `assessment.py` | `get_default_data`, `get_default_metadata` | DefaultData |
| `tools/regional_sim.py` | decision variables in `process_buildings_chunk` | RegDv |
| `tools/regional_sim.py` | hazard data in `regional_sim` | RegGrid |
| `assessment.py` | `Assessment.calculate_damage` | CalcDamage |
| `assessment.py` | `Assessment.calculate_loss`, `Assessment.aggregate_loss` | CalcLoss |
| | `calculate_demand` (collapse limits), `_add_units` | AsmDemand |
| | `calculate_demand` (residual drifts, constant demand) | AsmRid |
| | `calculate_asset` | AsmAsset |
| | damage parameters in `calculate_damage` | AsmDamage |
| | built-in damage processes and their selection in `calculate_damage` | AsmProcess, DmgTasks |
| | replacement consequences, automatic loss maps, loss map and combination of `calculate_loss` | AsmLoss |
| | `load_consequence_info`, `get_default_data`, `_loss__map_user`, parameters in `calculate_loss` | AsmConseq |
| | `aggregate_losses` with the checks of its arguments, the end of `calculate_loss`, `_parse_decision_variables` | LossTotal |
| | `main` of DL_calculation with the part of argparse it uses, `str2bool` | CommandLine |
| | the subcommand `dlml` of cli.py, `dlml_update`, `_resolve_version_to_commit_sha` with failing requests, the list of model files | DlmlTarget |
| | `load_data` in both orientations with text and missing cells, `load_from_file`, `convert_dtypes`, `check_if_str_is_na`, `with_parsed_str_na_values` | LoadTable |
| `tools/DL_calculation.py` | output configuration, output folder | ToolOut |
| `tools/DL_calculation.py`, `settings/input_schema.json` | `_parse_config_file`, the schema | ToolConfig |
| `tools/DL_calculation.py` | `run_pelicun`: the order of calculations and of the operations on files (not their contents) | ToolRun |
| | `_damage_save` | ToolDmg |
| `tools/NNR.py` | `NNR` | NNR |
| `tools/regional_sim.py` | `parse_id_filter`, selection of buildings | RegFilter |
| | intensity measures at buildings; chunks, jobs and result tables | Regional |
| `tools/dlml.py` | download, cache, import check | Dlml |

## 4. What is not modelled

* The joint fit of variables with censored samples and the numerical minimization (parameters of Fit and FitPercentile), the computation of the Cholesky and
  singular value decompositions (arguments of Copula; in the registry the copula is an arbitrary function, in C122 that of Copula), multivariate normal rectangle probabilities.
* Numerical error of floating-point arithmetic, run time, memory and the statistical quality of random numbers.  Properties
  about them are not in the list, because the model has exact numbers.
* Reading and writing of CSV, ZIP and JSON text (the cells are assumed to be restored), log files and texts of messages, plotting, documentation of the model library.
* The network protocol of GitHub (responses are parameters of `Dlml`; in particular its limit of 300 files in a comparison).
* The scripts that generate configurations (`auto_populate` runs arbitrary user code).
* `RepairModel` reports on missing fragility/consequence data that only print.


## 5. Property by property

`Props` is the module under `lean/Verif/Props` that has the theorems (the module of the same name under
`Model` has the code).  Status as in `MANIFEST.json`: *partial* means that the full statement is false of the code or
is proved only under an extra condition; section 6 says which.

| id | property | status | Props | method |
|----|----------|--------|-------|--------|
| C01 | Merging options: the user's value always wins, every default is filled in | proved | Config | mutual structural induction over the default tree; path-lookup characterisation of the result |
| C02 | Merging options is idempotent | proved | Config | induction over the tree, using C01's characterisation |
| C03 | Writing a configuration path and reading it back | proved | Config | induction over the key list of the path |
| C04 | Default-only writes never destroy what the user specified | proved | Config | case analysis on what is stored at the path; witness for a plain value at a proper prefix |
| C05 | is_unspecified / is_specified classify every stored value | partial | Config | case analysis on the stored value; negation for lists |
| C06 | Compact labels round-trip | proved | Labels | split/join inverse lemmas on `List Char` |
| C07 | Duplicate index entries receive distinct uids | proved | Labels | induction with a counter invariant; sorting is a permutation |
| C08 | Every distinct warning is shown exactly once per logger | proved | Logger | invariant over all histories of the logger's operations |
| C09 | Inverting a mapping is exact or refused | proved | Units | induction with an accumulator invariant |
| C10 | Unit conversion is consistent | proved | Units | lookup lemmas and field arithmetic; the shipped table by kernel evaluation, every entry |
| C11 | A unit table has a single meaning for each unit name | proved | Units | induction over the list of key/value pairs |
| C12 | Scaling selected rows touches exactly the selected rows | proved | Units | list map; selection predicate stated separately |
| C13 | Latin hypercube stratification | proved | UQRegistry | the uniform sample is a permutation of one point per stratum; counting |
| C14 | Registry names are unique and every registered variable is sampled | proved | UQRegistry | invariant over all histories of registry operations |
| C15 | Anchored variables are perfectly dependent | proved | UQRegistry | equality of uniform samples through the anchor relation; monotone inverse functions |
| C16 | Correlation matrices follow the variables | proved | UQRegistry | index bookkeeping of the correlation matrix under adding and selecting variables |
| C17 | Truncated sampling stays within the limits and preserves order | partial | UQDist | order arithmetic with an abstract distribution function / inverse pair |
| C18 | Inverse transform inverts the distribution function | partial | UQDist, Weibull | the same; parameters' meaning; instances of the abstract pair are constructed |
| C19 | Scaling a distribution scales its samples | partial | UQScale | field arithmetic per family; quantiles of scaled distributions |
| C20 | Coupled empirical samples replay the raw data in order | proved | UQFamilies | list arithmetic (cyclic repetition) |
| C21 | Multinomial sampling returns valid categories with the stated probabilities | proved | UQFamilies | partial sums of probabilities |
| C22 | Sampling a variable does not alter its uniform sample | partial | UQRegistry | store model for the in-place writes |
| C23 | Multilinear CDF accepts exactly valid curves and inverts them | proved | UQFamilies | order arithmetic on piecewise linear curves, generic ordered field |
| C24 | Empirical resampling only returns data points | proved | UQFamilies | floor arithmetic |
| C25 | Location strings denote the documented set of locations | partial | LocDir | parsing over `List Char`; separate grammar of location strings |
| C26 | Direction strings denote the documented set of directions | partial | LocDir | the same for directions |
| C27 | Component rows expand to the full product of locations and directions | proved | Asset | products of lists |
| C28 | Saving and loading restores the quantities | partial | DemandSample, FileIO | field arithmetic; refusal conditions |
| C29 | Inferred residual drift lies between zero and the peak drift | proved | DemandRid | real exponentials and order arithmetic |
| C30 | Adding a demand to the sample does not disturb the others | proved | DemandSample | list update lemmas |
| C31 | Calibration settings: the more specific entry wins | partial | DemandCalib | precedence of settings, by case analysis over the tables |
| C32 | Truncated and censored data are handled row-wise | proved | DemandCalib | filters over realizations |
| C33 | Cloned demands replicate their source | partial | DemandSample | list induction over the table of clones |
| C34 | Non-directional demands are the scaled maximum of the directional ones | proved | DemandReq | fold of maxima |
| C35 | Every performance group is assigned exactly one demand | proved | DemandReq | group-by lemmas; printing and reading of labels |
| C36 | Batches partition the performance groups within the block budget | proved | DmgBatch | induction over the rows with a budget invariant |
| C37 | The damage state is that of the highest exceeded limit state | partial | DmgEval | loop invariant over limit states in processing order |
| C38 | Higher demand never reduces damage | partial | DmgEval | monotonicity of the same loop |
| C39 | Damage states of different limit states never overlap | partial | DmgRVs | prefix sums of numbers of states |
| C40 | The first definition of a component wins, wholesale | proved | DmgParams | first-match lemma over concatenated sources |
| C41 | Damaged quantities add up to the component quantity | proved | DmgQty | sum over groups of blocks |
| C42 | A damage-process task only affects its targets in triggering realizations | proved | DmgTasks | frame reasoning for a task; induction over events |
| C43 | Location-restricted tasks only act within one location and in any order | proved | DmgTasks | restriction to a location commutes with the task; permutation of locations |
| C44 | The FEMA P-58 damage process makes global outcomes exclusive | proved | DmgTasks | symbolic execution of the whole built-in processes on arbitrary samples |
| C45 | Damage-process tasks run in the order of their numbers | partial | DmgTasks | order of sorted task names |
| C46 | Complete damage-state columns | proved | DmgQty | column bookkeeping |
| C47 | Capacity scaling specifications are validated and applied as written | proved | DmgRVs | case analysis on specification text |
| C48 | Damage-state probabilities form a distribution | proved | DmgQty | counting |
| C49 | Loss-map filling keeps user entries and covers all components | partial | LossParams | label parsing and map filling |
| C50 | The first definition of a consequence wins, wholesale | partial | LossParams | group-by-first, cell by cell |
| C51 | Replacement excludes repair losses | partial | LossAgg | aggregation end to end; the unused copies |
| C52 | Replacement thresholds replace exactly the realizations above the threshold | proved | LossAgg | per realization case analysis |
| C53 | Combining losses uses the table axes in the stated order | partial | LossComb | interpolation on table axes; witnesses for axis order |
| C54 | Aggregated repair time: parallel is never longer than sequential | proved | LossAgg | sums and maxima over locations |
| C55 | Loss-function losses are independent of the block subdivision | proved | LossLf | sum of equal shares |
| C56 | Bounded multilinear consequences stay between their plateaus and never increase with quantity | proved | LossDs | convexity of linear interpolation |
| C57 | Missing consequence parameters are reported exactly | proved | LossParams | set difference |
| C58 | Consequence scaling multiplies each loss by the factors of the matching rows | proved | LossScale | product over matching rows; permutation invariance |
| C59 | Collapse limits drop exactly the offending realizations | proved | AsmDemand | filter over realizations with limits as Python floats |
| C60 | Unneeded replacement consequences are removed | partial | AsmLoss | table rows case by case; the drop is a no-op |
| C61 | User-supplied loss maps are respected for collapse | partial | AsmLoss | map updates |
| C62 | Unit scale factors honour leading quantities | proved | Asset | text parsing |
| C63 | Demand units are assigned by demand type | partial | AsmDemand | case analysis on demand types |
| C64 | Selecting a built-in damage process never changes it for later assessments | proved | AsmProcess | store model with shared dictionaries; invariant over all histories |
| C65 | Runs in one session do not influence each other's outputs | partial | ToolOut | store model with shared dictionaries; independence per class of runs; leaks as witnesses |
| C66 | Result files in the output folder stem from the last run | partial | ToolOut | output folder as a file map; induction over histories |
| C67 | Condensed damage output reports the governing damage state | proved | ToolDmg | maximum over damage states |
| C68 | ID filters select exactly the listed ids | proved | RegFilter | parsing, sorting |
| C69 | Regional results do not depend on the schedule | proved | Regional | permutation invariance over all interleavings of job writes and all listings |
| C70 | Intensity measures keep their labels | partial | Regional | index arithmetic of flattened arrays |
| C71 | Nearest-neighbour interpolation is a weighted average | proved | NNR | convexity; explicit formula |
| C72 | An interrupted model-library download is never taken for a complete one | partial | Dlml | step machine with interruptions at every point; invariant over all traces |
| C73 | An uninterrupted cached update yields the same library as a full download | partial | Dlml | the same |
| C74 | Every component row is converted with its own unit | partial | Asset | row-wise conversion |
| C75 | Realizations flagged in the ERROR column are removed, and only those | proved | DemandSample | filter over realizations |
| C76 | The availability check refuses exactly the requirements that the demand sample cannot serve | partial | DemandReq | decision logic |
| C77 | A demand expression is evaluated on the demands of its component | partial | DemandReq | order of variables in the expression |
| C78 | The loss sample with a given seed is the same in every run | partial | LossParams | the seed-independent part; witness for the hash-dependent row order |
| C79 | A component with loss functions may be mapped to any loss-function consequence | partial | LossLf | lookup through the loss map |
| C80 | Losses of damaged components follow the documented formula with economies of scale | partial | LossDs | per realization formula; success exactly characterised |
| C81 | Automatic loss maps | proved | AsmLoss | case analysis over approaches |
| C82 | Grouped damage output is the total per component | proved | ToolDmg | sums over groups |
| C83 | Components for collapse and irreparable damage are added once, and nothing else changes | partial | AsmAsset | permutation of the loaded groups; merge of tables |
| C84 | Names of built-in models stand for files of the model library | partial | DefaultPath | path parsing |
| C85 | Every component gets its damage parameters from the source with the highest priority | partial | AsmDamage | first source with the component; fold over limit states for placeholders |
| C86 | Residual drifts are inferred for the configured directions only, and the constant demand is always there | partial | AsmRid | save and load round trip composed with the added columns, up to the order of columns |
| C87 | Component, damage and loss samples survive saving and loading | partial | Samples | one round trip lemma for files with units, used for the three kinds of samples; counting of dashes for the refusals |
| C88 | Generated demand and component samples follow the model | partial | DemandGen | the registry after creation is described once (own anchors, distinct names), then C13, C14, C15, C20 and C24 give the columns; a counting argument over strata for even resampling |
| C89 | The sample of damage states follows the fragilities | partial | DmgSample | the variables of a batch are characterised (one per defined limit state and block, rooted in the first limit state), then the registry lemmas of C14 and C15, the batches of C36 and the evaluation of C37 are composed; the share by counting strata below a probability |
| C90 | Damaged quantities follow the demands, the fragilities and the damage process | partial | DmgCalc | C89 for the drawn damage states, C40 to C44 for the damage process and the quantities are composed along the calculation; sums over blocks are exchanged with sums over columns |
| C91 | Random repair consequences have the distributions of the database | partial | LossDev | names and rows of the registry are followed through creation, pairing, copula and splitting of names; inverse transform of the cut distributions; stratified counts; C80 for the losses |
| C92 | Losses from loss functions have random deviations with the distributions of the database | partial | LossLfDev | as C91, with the blocks of the medians as the variables; C55 for the losses |
| C93 | Consequence and damage parameters mean the same in every unit | partial | ParamUnits | model of `f'{x:g}'` with a proof that reading it back gives the number rounded to six digits; the conversion column by column; linear interpolation commutes with stretching; C19 for distributions |
| C94 | Loading more parameters leaves the earlier ones as they are | partial | ParamUnits | a state of the model that every call preserves, induction over the list of calls; for the loss model the exact power of the factor (negation) |
| C95 | The losses belong to the current demands and damage | partial | LossCalc | the two samples as a state, every call of calculate, scaling or loading as a step; the result compared with that of a new model |
| C96 | A demand model that is saved and loaded has the same distributions | partial | DemandSave | round trip: the inverse conversion followed by the conversion is the identity on each row; sorting commutes with it |
| C97 | The JSON results have the contents of the result tables | partial | ToolJson | induction over the depth of the labels: the nested dictionary as a function of paths; columns with the same first part are grouped and looked up |
| C98 | The statistics describe the sample | proved | Stats | over the real numbers: sorted samples, percentiles by linear interpolation between positions, counts of values below and above; scaling commutes with each statistic |
| C99 | Regional losses are the losses of the buildings | partial | RegLoss | sums over groups of columns, from the loss of each damaged quantity (C91) to the total of the building; a building without priced damage has no column, so the selection fails |
| C100 | Regional damage results are the damage states of the buildings | proved | RegDmg | from C67 (governing damage states), sums over the components of a building |
| C101 | Saved component and loss samples and the summary contain the totals of the results | proved | ToolSave | sums over groups of columns (as C89, C90); the sum of sums is the total |
| C102 | The check for a new model library reports an update exactly if a newer one is available | partial | DlmlCheck | invariant over histories: the cache records the installed release and its commit; the saved result is that of the last check since the last change of the cache; counterexamples for whole classes of histories by induction on the number of updates |
| C103 | Distributions fitted to a sample are the most likely ones | partial | Fit, FitDetect | real analysis: the moments maximize the product of the densities (ln t ≤ t - 1); correlation matrices are Gram matrices, and the singular value decomposition of a positive semidefinite matrix restores it; bounds of the search by its definition; with a limit the objective decreases at the moments (density of the normal distribution on an interval, continuity of its quantiles) |
| C104 | Calibrated demands have the parameters of their own samples and the uncertainty asked for | partial | DemandFit | positions of fitted demands in the filtered tables; C103 for each column; algebra of variances |
| C105 | A distribution fitted to its own percentiles has the given values | partial | FitPercentile | the start of the search is exact (quantiles of the normal distribution, symmetry for 1/2), so a search that does not get worse ends with no error, which determines the values at all percentiles |
| C106 | A configuration is accepted exactly if it is complete, and what the user wrote is kept | partial | ToolConfig | entries at paths of which none is a prefix of the other do not affect each other; the schema makes every entry readable; what each step needs and changes, composed |
| C107 | The probability of a box is the probability that all variables are in it | partial | Orthotope | mvndst is any function that is exact for a measure of the standard normal variables; norm.ppf of cdf of a limit separates the standard values below and above it; positions of selected names give the right correlations |
| C108 | Parameters given for each realization are used for that realization | partial | UQRows | arrays represent a value for each realization, also after repetition and broadcasting; the formula with limits agrees with the one without where a row has none |
| C109 | The consequences of an assessment come from the source with the highest priority | partial | AsmConseq | the names select files of the library; the tables for the map and the sources of parameters are the same in opposite orders; composed with C50, C57, C60 and C81 |
| C110 | The aggregated losses have the decision variables that are selected | partial | LossTotal | the selection is read from the tree; the whole of the aggregation with its checks, composed with C52, C53 and C54 |
| C111 | Each option of the command line has the effect it asks for | partial | CommandLine | the parser of the standard library for options only, as a classification of texts and a loop over them; induction over the command line, composed with C106 |
| C112 | An update of the model library is made to the commit that was asked for | partial | DlmlTarget | the answers of the server are a parameter that agrees with a repository; case analysis, composed with the histories of C73 |
| C113 | Tables mean the same wherever they come from, and every number is in base units | partial | LoadTable | tables with cells that are numbers, text or missing; the number read in a text is a parameter; induction over columns and cells, sorting as a sorted permutation |
| C114 | Variables that are sampled together keep their distributions and have the correlation asked for | partial | Copula | the pushforward of independent uniform numbers is Mathlib's multivariate normal distribution (characteristic functions); square roots of positive semidefinite matrices are unique; the trace of the SVD square root for other matrices; existence of the factors for every symmetric matrix |
| C115 | Damage states occur with the probabilities of the fragility curves | proved | DmgProb | the model of C89 over the reals; the uniform numbers used by a block do not depend on the draws (C89); laws of single numbers, disjoint families of independent numbers, Chebyshev's inequality; a run with independent uniform draws is constructed |
| C116 | Damaged quantities have the binomial distribution of independent blocks | proved | DmgDist | C90 turns the damage table into the share of blocks; C115 gives the probability and the independence of the blocks; sum over the sets of damaged blocks for the distribution, sums of independent indicators for mean and variance; a run with random draws is constructed |
| C117 | With Latin hypercube sampling, the default, damage has the same probabilities | proved | DmgLhs | the numbers of a column are functions of its permutation and its uniform numbers; counting of the permutations with a given value at a position and scaling of Lebesgue measure give the law of one number; the proofs of C115 and C116 only need the law of the numbers and the independence of columns in a realization; draws and runs are constructed |
| C118 | Samples of random variables, demands and quantities have the distributions asked for | proved | SampleProb | each variable is computed from the row of uniform numbers of its anchor (invariant of the loop over variables); each family decides its event by comparison of the uniform number with the value of cdf (C18, C20, C21, C23, C24, C107), up to one number of probability zero; law and independence of the rows give the probabilities; demands and quantities through the names of their columns; draws and runs are constructed |
| C119 | Repair losses have the distributions of the consequence database and are independent | proved | LossProb | by C91 each loss is the damaged quantity times the unit consequence times a deviation computed from one row of uniform numbers, with different rows for different losses; the event that a loss is at most z is the event that the number is at most the value of the distribution function, in every outcome; law and independence of the rows as in C118; normal distributions of Mathlib by conditioning; draws and runs are constructed |
| C120 | A run of the tool calculates what is asked for, in order, and leaves no stale or unrequested tables, wherever it stops | partial | ToolRun | a run is a list of steps fixed by the configuration and the folder, the world decides which step fails and whether it had an effect; a run that stops is a prefix of the list, so that each claim is an invariant of prefixes: the parts of the list (removal, calculations, tables, JSON, removal of tables) touch known files; acceptance of the configuration is that of C106 |
| C121 | Losses from loss functions have the distribution of a mean of independent deviations, and are independent | proved | LossLfProb | the row of uniform numbers of a block is fixed by the place of its variable in the registry, so that the rows of different blocks are independent as in C118; the deviation of C92 is a measurable function of the uniform number, its law follows from its distribution function; mean, variance and independence of groups by Mathlib; draws and runs are constructed |
| C122 | Correlated variables and demands have the joint distribution asked for | proved | CorrSample | the sets of the registry get the copula of C114 (`CorrSample.copulaRows`); the uniform numbers before correlation are independent as in C118, so the normal quantiles after correlation are jointly normal by C114; a variable is at most a value when its correlated uniform number is at most the value of its `cdf` as in C118, apart from events of probability zero; scaled normal variables by characteristic functions; demands by the registry of C88; a demand model, draws and factors are constructed |
| C123 | Residual drifts added to a demand sample belong to its peak drifts and change nothing else | partial | RidAdjust | `estimate_RID_and_adjust_sample` on the samples of C30; the estimate of a column is an argument, bounded as in C29; columns compared up to order, units as a set; cases for refusals; negated for units with a conversion, because residual drifts are stored without unit |
| C124 | Correlated repair costs and times have the joint distribution asked for | partial | LossCorr | the calculation of C91 with the transformation of a set of two variables (as in C122), on a probability space with the generator of C118; joint law of the scores of a pair as image of a product of normal measures under the Cholesky factor; independence over pairs by product measures; a space and a calculation are constructed |
| C125 | With a seed, every result is repeatable, and the samples of different steps are independent | proved | RngStream | generators with a state, steps of an assessment as a list; induction over steps; for independence, the calls of the generator are independent (C118's generator, one entry for each call), each variable depends on its own calls, and events of disjoint blocks of calls are independent; an assessment with two samples is constructed |
| C126 | Damage in one call: demands are completed in order, damage belongs to this call, failed calls keep the old damage | partial | CalcDamage | composition of the residual drifts of C123, the additional demand of C30 and the damage parameters of C94 with arbitrary demand, asset and damage models; state kept on every exit; negated for the documented keys, location and direction, and for damage parameters in a second call |
| C127 | Losses in one call belong to the arguments of the call, and the aggregated losses are their totals | partial | CalcLoss | composition of the loss map of C49, the loss parameters of C94 and the aggregation of C54 and C110 with an arbitrary loss calculation; induction over repetitions of a call; negated for repeated calls with units that are converted, for assessments without losses and for what is reported after a failed call |
| C128 | A new assessment has the options of the user, the documented defaults for everything else, and all units | partial | Options | the shipped default options as a constant, merged with any configuration (C01, C02), read attribute by attribute; unit files as in C11; negated for the dictionary of the user, which is changed in place, and for default units when there is a unit file |
| C129 | A regional simulation gives every building its own components | partial | RegAsset | tables of all buildings grouped by component as strings, then loaded as a component model (C25, C26, C27, C74): groups characterized for every chunk; negated for different directions, quantities or units and for repeated rows |
| C130 | Data and metadata of a built-in model belong together and come from the model library | partial | DefaultData | names built from the arguments and looked up as in C84, files as any functions of folder and name; induction on the path for arbitrary names; negated for two legacy names |
| C131 | A regional simulation reports the decision variables that the buildings ask for | partial | RegDv | requests of the mappings as dictionaries, the last one taken, followed by the losses of C99; proved for chunks that agree, negated for others |
| C132 | A regional simulation uses complete hazard data | partial | RegGrid | files of the grid points as tables, checked and joined by row number; accepted exactly if complete; no gaps for files of equal length, negated for others |

## 6. Disagreements between the code and the properties

Each item is a behaviour of the code, at the pinned commit, that a user would not expect from the property.  Where the item
names a theorem, the behaviour is proved for the model (as a negation, a concrete witness, or for all inputs of a class).

### Configuration, labels, units

* C04 `update(..., only_if_empty_or_none=True)` along a path that runs through a plain value replaces that value by a
  dictionary: `C04_plain_prefix_value_lost`.
* C05 `is_unspecified` raises a ValueError for stored lists with two or more items: `C05_list_values_raise`.
* C10 the shipped unit table lists areas in the category `length`, so that a conversion between a length and an area is
  accepted: `C10_default_table_length_to_area`; `psi` differs from `lb/in2` in the sixth digit.
* C62 `'nan ft'` is accepted and gives a NaN factor: `C62_nan_quantity_accepted`.

### Distributions and random variables

* C16 `Rho(var_subset)` returns the transpose of the selected matrix; harmless because matrices are symmetric (`C16_subset`).
* C17 uniform variables with one truncation limit, or without parameters, give NaN (`C17_uniform_one_sided`); limits outside the
  support replace the support (`C17_uniform_leaves_support`); a lognormal variable with a negative upper limit gives NaN without a
  message (`C17_lognormal_negative_upper`).
* C18 the distribution function of a lognormal variable with a lower limit that is not positive is NaN:
  `C18_lognormal_nonpositive_lower`.  A `Normal_COV` variable with negative mean has a negative standard deviation.
* C19 a truncated lognormal variable without positive lower limit scales only approximately (its limit is replaced by a
  fixed small number), and only the first row of the two-dimensional parameter of a multilinear variable is scaled
  (`C19_multilinear_parameter`).
* C22 sampling a multinomial variable overwrites its uniform sample (`C22_multinomial_overwrites`), so that a variable anchored to
  it is wrong (`C22_anchored_multinomial_wrong`).
* C21 negative multinomial weights are accepted.  C24 an empirical variable at u = 1 raises an IndexError: `C24_one_rejected`.
* C103 with limits, the search for the parameters is bounded to ±10 (first, third, ... variable) or ±5 in the unit of the samples for normal variables,
  so the fit depends on the unit (`C103_bounded`, `C103_unit_dependent`).  A detection limit that censors no sample is taken for a truncation limit
  and changes the fit (`C103_detection_is_truncation`, `C103_detection_changes_fit`).  The samples of lognormal variables in the array of the
  caller are replaced by their logarithms (`C103_overwritten`).
* C105 the extreme percentile is the largest one, not the one farthest from 1/2: if it is 1/2, the fit to percentiles is not a number (`C105_lower_half`).
  A candidate family whose search fails is preferred (`C105_signs`: the lognormal family for values of both signs).
* C107 limits given as vectors, as in the docstring and the test suite, give one number for each variable, which is not the probability of the
  box: the probability that all standard variables are within the limits of this one (`C107_vector`, `C107_vector_wrong`).  Only limits in a
  column, or one variable, give the probability.  Several columns are refused (`C107_several_boxes`).  The stored results of the test suite
  are these numbers.
* C108 one scaling operation for each realization works for lognormal capacities only: deterministic capacities have the result of the first
  operation in all realizations (`C108_deterministic_capacities`), normal ones are refused (`C108_normal_capacities_refused`), although the code
  accepts the operations for these families.  If a realization has limits, a lognormal one without limits is cut at `1e-16`
  (`C108_lognormal_mixed`).

### Assets and demands

* C25 `'1--3,5'` loses 5 and `'1,3--4'` means 1 to 4 (`C25_mixed_entry_truncated`); `'2.7'` means 2 (`C25_fraction_truncated`).
* C26 a missing direction becomes direction 1 while a missing location is refused: `C26_missing_direction`.
* C74 the unit of the second row of a component is ignored: `C74_second_row_uses_first_unit`.
* C28, C30 an unknown unit in a loaded sample silently counts as 1: `C28_unknown_unit_ignored`, `C30_unknown_unit_accepted`.
* C31 inherited truncation and censoring limits are scaled twice (`C31_inherited_limit_scaled_twice`); entries for a subtype are
  silently ignored (`C31_subtype_entry_ignored`).
* C33 a target that collides with a kept column gives duplicate columns (`C33_collision_accepted`); after an ERROR column with a
  unit the units are shifted (`C33_units_shifted_after_error_column`).
* C34 multipliers of non-directional demands are not inherited by subtypes: `C34_subtype_does_not_inherit`.
* C76 a requirement whose location is available but not its direction passes the check: `C76_missing_direction_passes`.
* C77 equal demands of an expression collapse into one (`C77_equal_demands_collapse`); an empty expression cell is refused with a
  TypeError (`C77_empty_expression_refused`).
* C59 integer limits are refused with an AssertionError (`C59_integer_limit_refused`) and limits of a type without demands with a
  KeyError (`C59_unknown_type_refused`).
* C63 the demand types EDR, LR, LBR, PWF, PIF, PLF, PWP and ONE get no unit (`C63_types_without_unit`); length units such as mm or
  mile give an unknown acceleration unit (`C63_unknown_acceleration_unit`).

* C86 `calculate_demand` removes the method from the caller's configuration, so a second call with the same object raises a KeyError
  (`C86_second_call_refused`); the key names `x-direction` and `y-direction` of the input schema are refused
  (`C86_schema_names_refused`); a sample that already has residual drifts gets duplicate columns (not modelled).
* C83 a row of the user named collapse (or like another added component) is merged with the added one, so that the quantity is
  not one: `C83_own_row_merged`; components that collect excessive demands are placed at every combination of a location and a
  direction, also where there is no demand: `C83_group_without_demand`.
* C104 the additional uncertainty of a normal demand, a standard deviation in the unit given, is added to its coefficient of variation, so its variance
  is wrong unless the average is 1; the standard deviation is negative if the average is (`C104_normal_variance`).  For `normal_std` demands the additional
  uncertainty is not converted from its unit (`C104_unit_not_converted`).

### Damage

* C36 a table in which no performance group has blocks raises an IndexError: `C36_no_blocks_refused`.
* C37, C38, C39 limit states are processed in the order of their names as text, so ten or more of them, or a gap in their numbers,
  change damage states: `C37_ten_limit_states`, `C37_gap`, `C38_gap`, `C39_ten_limit_states`.
* C40 an incomplete row of the source with priority hides a complete row of a later source: `C40_incomplete_row_hides`.
* C42 names of components with an underscore are cut in tasks: `C42_underscore_cut`; in built-in processes the task of such a
  component silently disappears: `C64_underscore_drops_task`.
* C45 tasks are sorted as text, so task 10 runs before task 2: `C45_ten_first`.
* C46 a state beyond the number of states raises a KeyError (`C46_refused_iff`); added columns are zero in NA realizations too.
* C47 keys such as `LSfoo` and unknown components are silently ignored, and `'*nan'` is accepted; operations of a list all apply
  to the original median.
* C48 a sample in which all realizations are NA raises a ValueError: `C48_all_na`.
* A fragility given as `multilinear_CDF` fails for two or more blocks, and a component whose first limit state is not defined
  raises an IndexError (not modelled).
* C64 the built-in damage processes stay unchanged only because their targets name no component type; a target with a type would
  be changed for the rest of the session: `C64_type_in_target_would_leak`.

* C84 two legacy names stand for methods that the library does not have and are refused with a KeyError, and older prefixes are
  not recognised: `C84_legacy_name_without_method`.
* C85 a database row for collapse (or another added component) is used instead of the fragility in the configuration:
  `C85_configuration_hidden`.  With the default demand offsets, a collapse fragility on floor accelerations or velocities is
  compared with the demand of the floor below, and refused at the ground: `C85_floor_demand_shifted`.

### Losses

* C49 a loss map that mixes `DMG-` and plain labels loses the plain ones (`C49_mixed_flags_lose_entries`), and an id that contains the
  letters DMG garbles all labels (`C49_flag_inside_id`).
* C50 sources are merged cell by cell (`C50_mixture`), and an Incomplete flag of the library removes the user's complete definition
  (`C50_incomplete_leaks`).
* C51 replacement is made exclusive only in copies that are not used, so that replacement and repair losses add up:
  `C51_damage_replacement_adds_up`, `C51_everything_is_added`.
* C52 a missing ratio or decision variable raises a KeyError: `C52_refused_iff`.
* C53 the order of the axes of a combination table depends on the iteration order of a set (`C53_depends_on_set_order`,
  `C53_silently_wrong_axis`); a third component is refused (`C53_third_component_refused`); only the first matching group is combined
  (`C53_location_left_out`).
* C54 units are looked up by title-cased names, so decision variables such as CO2 raise a KeyError:
  `C54_name_in_capitals_refused`.
* C55 a performance group without blocks silently has no losses (`C55_zero_blocks`); a missing demand counts as no loss
  (`C55_missing_demand_is_no_loss`).
* C56 quantities of a multilinear consequence are not checked for order.
* C58 a backward range of locations silently matches nothing: `C58_backward_range_ignored`.
* C60 the empty Carbon/Energy replacement entry is not removed and is loaded as a definition: `C60_entry_stays`,
  `C60_empty_entry_is_loaded`.
* C61 plain entries for collapse and irreparable damage are overwritten (`C61_plain_overwritten`); added entries of a prefixed map
  without collapse lose their names (`C61_flagged_without_collapse`).
* C78 the order of the rows of the loss map depends on the hash seed of the Python process, and so do the samples:
  `C78_order_changes_sample`.
* C79 a loss-function consequence with an id other than that of the component raises a KeyError: `C79_other_consequence_refused`.
* C80 `AcrossFloors: False` never succeeds (`C80_separate_floors_refused`); `AcrossDamageStates: True` fails if a defined state is not
  realized (`C80_unrealized_state_refused`); a mix of random and deterministic states fails (`C80_mixed_families_refused`); a
  decision variable that only loss functions give fails (`C80_loss_function_only_refused`).
* C91 the time of a component with `Cost` in its name is never correlated with its cost, because the name of the variable for time is
  found by replacing every `Cost` in the name of the variable for cost (`C91_cost_in_name`); the family `deterministic` passes the
  check of the families but always fails when the variables are created (`C91_other_families_refused`).
* C92 the same for the time of a component with loss functions and `Cost` in its name (`C92_cost_in_name`).
* C93 the points of curves are written with six significant digits, also if nothing has to be converted; large quantities that
  differ in the seventh digit become equal (`C93_curve_rounded`).
* C94 every call of `load_model_parameters` of the loss model converts all parameters again, also those of earlier calls, so that
  they are multiplied by the factor of their unit once per call (`C94_loss_every_call_converts`).  A call without sources on a
  damage model with parameters raises a KeyError (`C94_damage_no_source_refused`).
* C95 the losses of an earlier calculation stay in the model if the asset has no component with loss functions any more, or if
  there is no damage sample (`C95_loss_functions_stale`, `C95_removed_component_violates`); a calculation that fails in the loss
  functions has replaced the losses from damage (`C95_failed_half_done`).
* C96 a demand model whose demands were cloned or whose sample was extended (for example by residual drifts) after it was
  calibrated cannot be saved (`C96_other_demands_refused`).
* C81 with the Hazus Hurricane approach and a single component, the combination pairs it with collapse:
  `C81_single_component_pair`.

* C87 a loss sample is not saved (KeyError) if a consequence lacks one of its decision variables that another consequence has
  (`C87_loss_missing_variable_refused`); samples of loss functions only, and samples without uid, cannot be loaded again
  (`C87_loss_function_sample_not_loadable`, `C87_loss_without_uid_refused`); no sample with a dash in a component id can be
  loaded from its file (`C87_dash_refused`).
* C88 empirical data given to `load_model` in a dictionary is never used (`C88_dictionary_data_ignored`,
  `C88_dictionary_model_unusable`); a model without correlation that is saved cannot be loaded, or picks up an older correlation
  file (`C88_no_correlation`); a model without empirical data keeps that of the model loaded before (`C88_old_data_kept`).
* C89 a component whose first limit state is not defined (IndexError, `C89_first_undefined_violates`) and a limit state with a
  `multilinear_CDF` capacity in a performance group of several blocks (AttributeError, `C89_multilinear_blocks_violates`) make
  the damage calculation fail.  Without anything to evaluate it fails as well (`C89_nothing_to_evaluate`).  By reading: a fixed
  capacity with one adjustment per realization becomes a two-dimensional parameter that cannot be sampled.
* C109 file names of earlier versions are refused although the code has a branch for them (`C109_file_names_refused`).  Rows with the same
  name are not removed from the table of consequences, so a user who defines the times of a Hazus structure anew has the calculation refused
  (`C109_redefined_time_refused`; that a series cannot be assigned to a cell is part of the model of pandas).  A row for the replacement in a
  table hides the configured cost (`C109_replacement_hidden`); definitions are mixed cell by cell (`C109_mixture`).
* C110 when every decision variable is declined the cost and the time are calculated (`C110_nothing_selected`).  Without losses
  `aggregate_losses` returns one table where the caller expects two, and the run stops (`C110_no_losses_refused`).  The setting that turns
  unknown names in the registry of replacement values into warnings has no effect, they are refused later (`C110_unknown_threshold_refused`).

### Tools

* C65 output format, emptied loss section, disabled check and settings leak from one run to the next in a session:
  `C65_format_sticks`, `C65_losses_lost`, `C65_check_disabled`, `C65_settings_leak`.
* C66 JSON files are not among the removed files, so those of an earlier run stay (`C66_stale_json_witness`); a skipped run leaves all
  files of the run before it (`C66_skipped_run_keeps_old_results`).
* C97 statistics with units (those of demands, components, damages and losses) are written to JSON as texts instead of numbers,
  because the row with the units makes every column a column of texts: `C97_statistics_text`.
* C68 a filter that lists nothing, such as a comma, selects the whole inventory: `C68_blank_selects_all`.
* C69 a building without results is saved as missing: `C69_missing_building`.  The random generators of the jobs are not
  seeded (not modelled).
* C70 intensity measures are mislabelled whenever the configuration does not list them alphabetically: `C70_mislabelled`.
* C99 a Hazus earthquake simulation in which some building is damaged in no realization fails for the whole batch
  (`C99_undamaged_refused`: KeyError, or AssertionError if no building of the occupancy class is damaged); with the other methods such a building has
  no repair cost instead of zero (`C99_general_partial`, and C69 for what is saved).
* C100 the damage states of a building with several components are added up, which is not a damage state (`C100_states`).
* C102 an update is reported forever, whatever is downloaded, if the latest release has the same commit as the recorded one
  (`C102_same_commit`), if updates are made without the cache (`C102_no_cache`), and after a download of the newest commit if it is the one of the
  latest release (`C102_after_commit`).  A failed check hides updates for a day (`C102_failed_hides`), and a check at a wrong time in the future
  until this time has passed (`C102_clock_back`).
* C106 a file with a sample of component quantities is never accepted: the schema needs a file with component assignments, the
  later check refuses a configuration with both (`C106_sample_file_refused`).  The default demand file `response.csv` is never used with a given
  configuration (`C106_response_file_not_used`).  A collapse fragility without distribution loses its second parameter, and the name `BldgRepair`
  of earlier versions overrides `Repair` if both are given (part of `C106_completed`).
* C72, C73 a first download interrupted after the list of files counts as complete at every later import
  (`C72_import_accepts_partial`); an interrupted update followed by a request of the old version leaves a mixed library
  (`C72_mixed_library`); a request of the cached version restores nothing (`C73_same_commit_does_nothing`,
  `C73_uncached_then_cached`); versions on diverged branches keep stale files (`C73_diverged_stale`).
* C111 `--coupled_EDP` without a value leaves the demands uncoupled, because the value for this case is `False` (`C111_coupled_flag_ignored`,
  `C111_coupled_flag_calibrates`).  `--Realizations`, `--coupled_EDP` and `--detailed_results` have no effect if the configuration has an
  entry `DL` (`C111_options_not_used`).  The text of `--output_format` is searched for `csv` and `json`, so `CSV` switches all formats off
  (`C111_formats`).
* C112 if the request for the tag of a release fails, its branch (for example `main`) is downloaded and its name is cached as the commit;
  later updates with the same failure do nothing, although the branch has moved (`C112_branch_instead`, `C112_branch_stale`).  Of tags that
  point to tags the object of the inner tag is taken for the commit (`C112_nested_tag`).  The commit in the help text of the command
  (`commit def567`) has six digits and is refused, and so are full names of commits (`C112_other_lengths_refused`).  Entries of the list of
  model files with `..` are written outside of the data folder (`C112_files_outside`).
* C113 with variables in columns and a table of units, `load_data` multiplies all columns (it selects the rows of the numeric columns, which
  are all rows), so that a column of text raises `TypeError`, whereas it is kept with variables in rows
  (`C113_text_column_refused`).  In a CSV file, the name of a unit that is a number becomes a number if the column has numbers only, and is
  then not recognized (`C113_numeric_unit`).
* C114 a correlation matrix that is not positive semidefinite is accepted: the fallback uses the singular values, that is the absolute values
  of the eigenvalues, so that the standard deviation of the normal scores of at least one variable is larger than one and its samples do not
  follow its distribution (`C114_indefinite`; for example three variables with correlation -0.9 for each pair).
* C120 a configuration with losses but without repair losses is accepted although outputs of repair losses are asked for (they are by
  default); the run ends with an `AssertionError` after all calculations, and the summary is not written (`C120_loss_outputs_without_repair`).
  A run that fails has already removed the tables of earlier runs, but their JSON files stay (`C120_tables`, `C120_json_files` and the examples beside them).
* C123 residual drifts are estimated from peak drifts in the unit of the user, but stored without unit and not converted: with peak drifts
  in a unit that is not 1, such as percent, they are larger than the peak drifts (`C123_other_unit`, `C123_percent_exceeds`).
* C126 `Assessment.calculate_damage` ignores `location` and `direction` of the additional demand (`C126_location_ignored`); it refuses the documented
  configuration of residual drifts, with `params` or without `method` (`C126_documented_refused`); a second call keeps the damage parameters of the
  first for components that have them (`C126_second_call`).
* C127 `Assessment.calculate_loss` made again with the same arguments converts the loss parameters again: after `n` calls a parameter has been multiplied `n`
  times by the factor of its unit (`C127_repeated`, `C127_repeated_same_iff`); `aggregate_loss` without losses ends with an `AssertionError` instead of the
  documented tables (`C127_no_losses_refused`); a failed call has already changed the decision variables that are reported (`C127_failed_hides`).
* C128 the configuration dictionary of the user is changed by a new assessment: the defaults are added to it (`C128_dictionary_changed`).  The documentation of
  `Options` says that the default units are always loaded; with a unit file they are not (`C128_default_units_lost`).  An option with a wrong name or in a
  wrong place has no effect and is not reported (`C128_other_entries`).
* C129 the components of the buildings of a chunk are collected in one row for each component.  If two buildings have a component in different quantities or
  units, the whole chunk is refused (`C129_refused`); in different directions, every building has it in all of them (`C129_directions_added`); rows of one
  building with the same entries count once (`C129_repeated_once`).  So results depend on the size of the chunks (`C129_chunk_matters`).
* C130 the legacy names `damage_DB_Hazus_EQ_water` and `damage_DB_Hazus_EQ_power` are refused, because the methods they stand for are not in the library under
  these names (`C130_legacy_refused`).
* C131 the decision variables of a chunk are those of its last building (`C131_last_decides`, `C131_not_reported`), and without costs there are no results.
  With the Hazus earthquake method they have no effect (`C131_hazus`).
* C132 a grid point file with fewer rows than another one is accepted, and its values are missing in the further realizations (`C132_short_file`).
  Only the first file is checked for intensity measures; in a later file a missing one is another error (`C132_later_file`).

## 7. Wrong programs

`seeded/LOG.jsonl` has one line per seeded error: the definition that was edited in a scratch copy of the model, the edit, the
claim that it breaks, the theorems that failed and, where nothing failed at first, the theorems that were added or tightened.
Edits that turned out to change nothing observable (equivalent programs) are not listed.
