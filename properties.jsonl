{"id": "C01", "title": "Merging options: the user's value always wins, every default is filled in", "statement": "After options are merged with the defaults, every leaf the user set keeps the user's value, every leaf that only the defaults define holds the default value, no other leaf appears, and the merge is rejected with an error exactly when some path is a dictionary on one side and a plain value on the other.", "quantifier": "every user configuration tree, every default tree, every path", "why_tests_cant": "nesting depth, key sets and clash positions are unbounded; a test covers a handful of trees", "anchors": ["pelicun/base.py:update_vals", "pelicun/base.py:merge_default_config"]}
{"id": "C02", "title": "Merging options is idempotent", "statement": "Merging an already merged configuration with the same defaults succeeds and changes nothing.", "quantifier": "every pair of user and default trees whose first merge succeeds", "why_tests_cant": "all trees", "anchors": ["pelicun/base.py:update_vals"]}
{"id": "C03", "title": "Writing a configuration path and reading it back", "statement": "After `update(config, path, value)` the call `get(config, path)` returns that value, whatever was stored before; any path that does not share the whole written path as prefix and is not a prefix of it reads the same as before.", "quantifier": "every configuration tree, every path of any depth, every value", "why_tests_cant": "depth and content of the tree are unbounded", "anchors": ["pelicun/base.py:update", "pelicun/base.py:get"]}
{"id": "C04", "title": "Default-only writes never destroy what the user specified", "statement": "`update(..., only_if_empty_or_none=True)` stores the value when nothing (or None or an empty dictionary) is stored at the path and leaves the configuration exactly as it was when a value is stored there.", "quantifier": "every tree, path and value", "why_tests_cant": "the interesting trees are those in which an intermediate key of the path holds a plain value; there are infinitely many", "anchors": ["pelicun/base.py:update"]}
{"id": "C05", "title": "is_unspecified / is_specified classify every stored value", "statement": "For every configuration and path exactly one of is_specified and is_unspecified is true, neither raises, a missing path, None, NaN, an empty dictionary and an empty list count as unspecified and every other value as specified.", "quantifier": "every tree, path and stored value including lists of any length", "why_tests_cant": "values include lists of arbitrary length", "anchors": ["pelicun/base.py:is_unspecified", "pelicun/base.py:is_specified"]}
{"id": "C06", "title": "Compact labels round-trip", "statement": "Converting a multi-level index to dash-joined labels and splitting it again gives back the same labels whenever no label contains a dash; conversely splitting dash labels and joining them gives the original strings back when all have the same number of parts.", "quantifier": "every index with at least two levels, any number of rows, any strings", "why_tests_cant": "all strings and sizes; the dash condition has to be exactly right", "anchors": ["pelicun/base.py:convert_to_SimpleIndex", "pelicun/base.py:convert_to_MultiIndex"]}
{"id": "C07", "title": "Duplicate index entries receive distinct uids", "statement": "Adding uids to an index with repeated entries yields an index without repetitions, with the same rows and the same multiset of original labels, and the k-th occurrence of a label gets uid k-1.", "quantifier": "every index of any length with any repetition pattern", "why_tests_cant": "repetition patterns are unbounded", "anchors": ["pelicun/base.py:dedupe_index"]}
{"id": "C08", "title": "Every distinct warning is shown exactly once per logger", "statement": "Over any history of queueing, emitting and immediate warnings, no message is emitted twice, only queued messages are emitted, and after an emit every message queued so far has been emitted.", "quantifier": "every finite sequence of add_warning / emit_warnings / warning calls", "why_tests_cant": "it is a property of histories", "anchors": ["pelicun/base.py:Logger.add_warning", "pelicun/base.py:Logger.emit_warnings", "pelicun/base.py:Logger.warning"]}
{"id": "C09", "title": "Inverting a mapping is exact or refused", "statement": "invert_mapping returns a mapping that sends x to k exactly when the original lists x under k, and raises exactly when some value is listed under two keys (or twice).", "quantifier": "every mapping of keys to lists of values", "why_tests_cant": "all mappings", "anchors": ["pelicun/base.py:invert_mapping"]}
{"id": "C10", "title": "Unit conversion is consistent", "statement": "Convert a value from unit A to B and back to A: the value is restored; A to B to C equals A to C; conversion across categories and conversion with unknown units is rejected; a value is never silently left unconverted.", "quantifier": "every unit table with nonzero factors, every value, every choice of units", "why_tests_cant": "all tables, values and units (up to floating point rounding)", "anchors": ["pelicun/base.py:convert_units"]}
{"id": "C11", "title": "A unit table has a single meaning for each unit name", "statement": "A custom unit file is either rejected or yields a table in which each unit name that occurs in any category has exactly one factor, namely the one written in the file for it; a custom file replaces the default table altogether.", "quantifier": "every unit file content (with possibly repeated keys and values that are not numbers)", "why_tests_cant": "all tables", "anchors": ["pelicun/base.py:parse_units", "pelicun/base.py:dict_raise_on_duplicates"]}
{"id": "C12", "title": "Scaling selected rows touches exactly the selected rows", "statement": "multiply_factor_multiple_levels multiplies by the factor precisely the rows whose index satisfies all the given level conditions and leaves all the others unchanged; it errors exactly when no row matches and missing rows are to be reported.", "quantifier": "every table, set of conditions, factor", "why_tests_cant": "all tables and conditions", "anchors": ["pelicun/base.py:multiply_factor_multiple_levels"]}
{"id": "C13", "title": "Latin hypercube stratification", "statement": "With LHS sampling of n realizations every random variable that is not part of a correlated set (and does not share its anchor with a multinomial variable) has exactly one uniform sample in each of the n equal-probability strata, and the midpoint variant places it at the middle of the stratum.", "quantifier": "every sample size, every permutation and every jitter the generator may return, every set of variables", "why_tests_cant": "all random streams", "anchors": ["pelicun/uq.py:RandomVariableRegistry.generate_sample"]}
{"id": "C14", "title": "Registry names are unique and every registered variable is sampled", "statement": "A registry never holds two variables with one name (a second registration is refused); after generating a sample each registered variable has a sample of the requested length.", "quantifier": "every sequence of registrations", "why_tests_cant": "histories", "anchors": ["pelicun/uq.py:RandomVariableRegistry.add_RV", "pelicun/uq.py:RandomVariableRegistry.generate_sample"]}
{"id": "C15", "title": "Anchored variables are perfectly dependent", "statement": "All variables that lead to the same anchor receive the same uniform sample, hence for increasing transformations their values are ordered alike in all realizations.", "quantifier": "every anchor graph without cycles, every sample", "why_tests_cant": "all anchor chains", "anchors": ["pelicun/uq.py:BaseRandomVariable.uni_sample", "pelicun/uq.py:BaseRandomVariable.anchor"]}
{"id": "C16", "title": "Correlation matrices follow the variables", "statement": "In a variable set the correlation stored for variables a and b is the entry the caller supplied for a and b, no matter in which order the variables were supplied, and asking for a subset returns the matching sub-matrix of a symmetric matrix.", "quantifier": "every set of variables with distinct names, every matrix, every supply order, every subset", "why_tests_cant": "all orders", "anchors": ["pelicun/uq.py:RandomVariableSet.__init__", "pelicun/uq.py:RandomVariableSet.Rho"]}
{"id": "C17", "title": "Truncated sampling stays within the limits and preserves order", "statement": "The inverse transform of a truncated variable maps every uniform value in [0,1] to a value between the lower and the upper truncation limit, and larger uniform values never map to smaller values.", "quantifier": "every parameter choice, limits and uniform value", "why_tests_cant": "a continuum of parameters", "anchors": ["pelicun/uq.py:NormalRandomVariable.inverse_transform", "pelicun/uq.py:LogNormalRandomVariable.inverse_transform", "pelicun/uq.py:UniformRandomVariable.inverse_transform"]}
{"id": "C18", "title": "Inverse transform inverts the distribution function", "statement": "For untruncated and truncated normal, lognormal, uniform and Weibull variables, cdf(inverse_transform(u)) = u for each u strictly between 0 and 1.", "quantifier": "every parameter choice and uniform value", "why_tests_cant": "a continuum of parameters", "anchors": ["pelicun/uq.py:NormalRandomVariable.cdf", "pelicun/uq.py:UniformRandomVariable.cdf"]}
{"id": "C19", "title": "Scaling a distribution scales its samples", "statement": "The distribution obtained by scaling the parameters by f>0 has as its quantile function f times the quantile function of the original, for each supported family; unsupported families are rejected; scaling by f then g equals scaling by f*g.", "quantifier": "every family, parameters, truncation limits and factor", "why_tests_cant": "a continuum of parameters", "anchors": ["pelicun/uq.py:scale_distribution"]}
{"id": "C20", "title": "Coupled empirical samples replay the raw data in order", "statement": "With order preserved, realization i of every variable is raw row i modulo the number of raw rows, so the rows of the raw data stay together.", "quantifier": "every raw sample and requested size", "why_tests_cant": "all sizes", "anchors": ["pelicun/uq.py:CoupledEmpiricalRandomVariable.inverse_transform", "pelicun/model/demand_model.py:DemandModel.generate_sample"]}
{"id": "C21", "title": "Multinomial sampling returns valid categories with the stated probabilities", "statement": "For probabilities p1..pk with sum at most one (the last one completing to one), the value for u is the category i with p1+..+p(i-1) <= u < p1+..+pi, the last category taking everything up to 1; it is always in 0..k-1; weights adding up to more than one are refused.", "quantifier": "every vector of nonnegative probabilities and every u in [0,1]", "why_tests_cant": "a continuum", "anchors": ["pelicun/uq.py:MultinomialRandomVariable"]}
{"id": "C22", "title": "Sampling a variable does not alter its uniform sample", "statement": "Generating the sample of a variable leaves the uniform sample that drives it (and any variable anchored to it) unchanged.", "quantifier": "every family, every uniform sample", "why_tests_cant": "aliasing is invisible in value-based tests of one variable", "anchors": ["pelicun/uq.py:MultinomialRandomVariable.inverse_transform", "pelicun/uq.py:RandomVariable.inverse_transform_sampling"]}
{"id": "C23", "title": "Multilinear CDF accepts exactly valid curves and inverts them", "statement": "A multilinear CDF is accepted only when it runs from 0 to 1 with strictly increasing values and probabilities; its inverse transform then maps [0,1] into the value range, is monotone and inverts the curve.", "quantifier": "every list of points", "why_tests_cant": "all curves", "anchors": ["pelicun/uq.py:MultilinearCDFRandomVariable"]}
{"id": "C24", "title": "Empirical resampling only returns data points", "statement": "For every uniform value below one the empirical variable returns one of the raw data points, each for an equal share of the unit interval.", "quantifier": "every raw sample and uniform value", "why_tests_cant": "all samples", "anchors": ["pelicun/uq.py:EmpiricalRandomVariable.inverse_transform"]}
{"id": "C25", "title": "Location strings denote the documented set of locations", "statement": "A location entry - a single number, a comma separated list, a range a--b, 'all', 'top' or 'roof' - expands to exactly the documented list of location identifiers, and anything else is refused instead of being truncated silently.", "quantifier": "every entry string and story count", "why_tests_cant": "all strings", "anchors": ["pelicun/model/pelicun_model.py:PelicunModel._get_locations"]}
{"id": "C26", "title": "Direction strings denote the documented set of directions", "statement": "A direction entry - a number, a list, a range, or nothing - expands to exactly the listed directions, in order, as integers.", "quantifier": "every entry string", "why_tests_cant": "all strings", "anchors": ["pelicun/model/pelicun_model.py:PelicunModel._get_directions"]}
{"id": "C27", "title": "Component rows expand to the full product of locations and directions", "statement": "Loading a component model produces one performance group for each combination of listed location and direction of each row, with the row's quantity parameters; no two performance groups share an identifier.", "quantifier": "every component table", "why_tests_cant": "all tables", "anchors": ["pelicun/model/asset_model.py:AssetModel.load_cmp_model"]}
{"id": "C28", "title": "Saving and loading restores the quantities", "statement": "Saving a table in user units and loading it again in a session with the same unit table gives the same values; a unit that is not in the table is reported instead of being ignored.", "quantifier": "every table, unit assignment and unit table with nonzero factors", "why_tests_cant": "all tables", "anchors": ["pelicun/file_io.py:save_to_csv", "pelicun/file_io.py:load_data"]}
{"id": "C29", "title": "Inferred residual drift lies between zero and the peak drift", "statement": "With the FEMA P-58 inference every residual drift realization is nonnegative and no larger than the peak transient drift of the same realization and zero below the yield drift.", "quantifier": "every nonnegative peak drift sample, positive yield drift, lognormal disturbance", "why_tests_cant": "a continuum and all random draws", "anchors": ["pelicun/model/demand_model.py:DemandModel.estimate_RID"]}
{"id": "C30", "title": "Adding a demand to the sample does not disturb the others", "statement": "Adding a demand to a sample stores the given values converted from the given unit under the given label, replacing a demand that had that label; every other demand is unchanged; a value array whose length differs from the number of realizations is refused.", "quantifier": "every sample, label, value (scalar or array) and unit", "why_tests_cant": "all samples and labels", "anchors": ["pelicun/model/demand_model.py:DemandModel.expand_sample"]}
{"id": "C31", "title": "Calibration settings: the more specific entry wins", "statement": "For each demand the calibration uses the value given for the demand type when there is one and the value given under ALL otherwise.", "quantifier": "every settings dictionary and demand list", "why_tests_cant": "all settings", "anchors": ["pelicun/model/demand_model.py:DemandModel.calibrate_model"]}
{"id": "C32", "title": "Truncated and censored data are handled row-wise", "statement": "Calibration discards a realization exactly when some truncated demand lies on or outside of its limits; censored rows are counted and removed exactly when some censored demand is on or outside its limits.", "quantifier": "every sample and limits", "why_tests_cant": "all samples", "anchors": ["pelicun/model/demand_model.py:DemandModel.calibrate_model"]}
{"id": "C33", "title": "Cloned demands replicate their source", "statement": "After clone_demands each listed target holds the values of its source, demands that are neither source nor target are unchanged, and a configuration that lists a target twice is refused; no demand column is ever overwritten or duplicated silently.", "quantifier": "every sample and cloning configuration", "why_tests_cant": "all configurations", "anchors": ["pelicun/model/demand_model.py:DemandModel.clone_demands"]}
{"id": "C34", "title": "Non-directional demands are the scaled maximum of the directional ones", "statement": "A performance group with no direction receives in each realization the largest directional demand multiplied by the type specific factor if one is configured, by the ALL factor otherwise, and an error is raised if neither exists; with a factor of at least one and nonnegative demands it is never smaller than any directional demand.", "quantifier": "every demand sample, multiplier configuration and realization", "why_tests_cant": "all samples", "anchors": ["pelicun/model/demand_model.py:_assemble_required_demand_data"]}
{"id": "C35", "title": "Every performance group is assigned exactly one demand", "statement": "Collecting the required demands assigns each performance group to exactly one demand (type, location shifted by the component's offset, direction or non-directional), loses none and lists none twice.", "quantifier": "every performance group table and parameter table", "why_tests_cant": "all tables", "anchors": ["pelicun/model/demand_model.py:_get_required_demand_type"]}
{"id": "C36", "title": "Batches partition the performance groups within the block budget", "statement": "Splitting performance groups into batches assigns each group to exactly one batch, a batch exceeds the configured number of blocks only if it consists of a single group, and the splitting terminates.", "quantifier": "every performance group table and positive batch size", "why_tests_cant": "all tables and sizes", "anchors": ["pelicun/model/damage_model.py:DamageModel_DS._get_pg_batches"]}
{"id": "C37", "title": "The damage state is that of the highest exceeded limit state", "statement": "In each realization a component block is assigned the damage state sampled for the highest limit state whose capacity is below the demand, and damage state 0 when no capacity is below the demand.", "quantifier": "every demand, capacity and damage-state sample and any number of limit states", "why_tests_cant": "all samples and limit-state sets", "anchors": ["pelicun/model/damage_model.py:DamageModel_DS._evaluate_damage_state"]}
{"id": "C38", "title": "Higher demand never reduces damage", "statement": "If the demand in a realization is increased with capacities and damage state draws unchanged and damage states increase with limit states, the assigned damage state does not decrease.", "quantifier": "every capacity/damage sample and pair of demands", "why_tests_cant": "a continuum", "anchors": ["pelicun/model/damage_model.py:DamageModel_DS._evaluate_damage_state"]}
{"id": "C39", "title": "Damage states of different limit states never overlap", "statement": "Each limit state of a component is given its own consecutive block of damage-state numbers, starting from 1 without gaps; a limit state with w weights owns w numbers and one without weights owns one.", "quantifier": "every component fragility definition", "why_tests_cant": "all definitions", "anchors": ["pelicun/model/damage_model.py:DamageModel_DS._create_dmg_RVs"]}
{"id": "C40", "title": "The first definition of a component wins, wholesale", "statement": "When several model parameter sources define the same component, the parameters used are exactly the row of the source with the highest priority, even where that row has missing values (damage parameters).", "quantifier": "every sequence of sources", "why_tests_cant": "all sources", "anchors": ["pelicun/model/damage_model.py:DamageModel_Base.load_model_parameters"]}
{"id": "C41", "title": "Damaged quantities add up to the component quantity", "statement": "For each performance group and realization, the quantities over all damage states add up to the component quantity times the share of blocks with a defined damage state; no damaged quantity is negative for nonnegative quantities.", "quantifier": "every quantity, block count and block damage-state sample", "why_tests_cant": "all samples", "anchors": ["pelicun/model/damage_model.py:DamageModel_DS.prepare_dmg_quantities"]}
{"id": "C42", "title": "A damage-process task only affects its targets in triggering realizations", "statement": "Running one task leaves every realization in which the source component is not in the triggering damage state unchanged, leaves every component other than the target unchanged, and in triggering realizations puts the target in exactly the requested state (or NA).", "quantifier": "every damage-state sample and every task whose component names have no underscore (an underscore cuts the name, see DESIGN.md)", "why_tests_cant": "all samples and tasks", "anchors": ["pelicun/model/damage_model.py:DamageModel_DS.perform_dmg_task"]}
{"id": "C43", "title": "Location-restricted tasks only act within one location and in any order", "statement": "A -LOC task changes target columns only at locations where the source is in the trigger state at the same location; the result does not depend on the order in which the locations are visited.", "quantifier": "every sample and every visiting order", "why_tests_cant": "iteration order of a set is an uncontrolled schedule", "anchors": ["pelicun/model/damage_model.py:DamageModel_DS._perform_dmg_event_loc"]}
{"id": "C44", "title": "The FEMA P-58 damage process makes global outcomes exclusive", "statement": "After the built-in FEMA P-58 process, in each realization: if collapse occurred everything else is NA; else if irreparable damage occurred all other components are NA and collapse is in state 0; collapse and irreparable are never both active.", "quantifier": "every damage-state sample before the process", "why_tests_cant": "all samples", "anchors": ["pelicun/assessment.py:default_damage_processes", "pelicun/model/damage_model.py:DamageModel_DS.perform_dmg_task"]}
{"id": "C45", "title": "Damage-process tasks run in the order of their numbers", "statement": "The tasks of a damage process run in increasing order of the number that prefixes the task name.", "quantifier": "every damage process with any number of tasks", "why_tests_cant": "processes with ten or more tasks", "anchors": ["pelicun/model/damage_model.py:DamageModel.calculate"]}
{"id": "C46", "title": "Complete damage-state columns", "statement": "When all damage states are requested the damage sample has for each performance group exactly the columns 0..n where n is the number of damage states of the component; existing values are preserved and added columns are zero.", "quantifier": "every sample and parameter table", "why_tests_cant": "all tables", "anchors": ["pelicun/model/damage_model.py:DamageModel_DS.complete_ds_cols"]}
{"id": "C47", "title": "Capacity scaling specifications are validated and applied as written", "statement": "A capacity scaling specification is accepted exactly when every limit-state key starts with LS or is ALL, ALL is alone in its component, and each entry is an operation of + - * / followed by a number. For an accepted specification the median of a limit state of a listed component-location-direction is the operation applied to the median of the parameter table (a list of operations gives one median per realization, each operation applied to the original median); all other medians are unchanged.", "quantifier": "every specification and capacity", "why_tests_cant": "all strings and numbers", "anchors": ["pelicun/model/damage_model.py:DamageModel_DS._create_dmg_RVs", "pelicun/model/damage_model.py:DamageModel_DS._handle_operation_list"]}
{"id": "C48", "title": "Damage-state probabilities form a distribution", "statement": "For each component the reported damage-state probabilities are between 0 and 1 and add up to one whenever some realization has a defined damage state; NA realizations are excluded.", "quantifier": "every damage-state sample", "why_tests_cant": "all samples", "anchors": ["pelicun/model/damage_model.py:DamageModel_DS.probabilities"]}
{"id": "C49", "title": "Loss-map filling keeps user entries and covers all components", "statement": "After adding a loss map with policy 'fill' each user entry is unchanged and every asset component (except excessiveRID) has an entry, missing ones mapped to themselves; with no policy the map is used as given; no map and no policy is refused.", "quantifier": "every loss map, component list and policy", "why_tests_cant": "all maps", "anchors": ["pelicun/model/loss_model.py:LossModel.add_loss_map"]}
{"id": "C50", "title": "The first definition of a consequence wins, wholesale", "statement": "When several sources define consequence parameters for one component and decision variable, the parameters used are exactly the row of the source with the highest priority.", "quantifier": "every sequence of sources", "why_tests_cant": "all sources", "anchors": ["pelicun/model/loss_model.py:RepairModel_Base.load_model_parameters"]}
{"id": "C51", "title": "Replacement excludes repair losses", "statement": "In aggregated losses, a realization in which the asset is replaced counts only the replacement consequence: losses of all other components are zero in that realization.", "quantifier": "every loss sample", "why_tests_cant": "all samples", "anchors": ["pelicun/model/loss_model.py:LossModel.aggregate_losses", "pelicun/model/loss_model.py:LossModel._make_replacement_exclusive"]}
{"id": "C52", "title": "Replacement thresholds replace exactly the realizations above the threshold", "statement": "With thresholds configured, a realization whose repair loss strictly exceeds ratio times replacement value in some decision variable has all its losses replaced by the replacement values and is flagged; all other realizations are unchanged and not flagged.", "quantifier": "every loss sample and threshold configuration", "why_tests_cant": "all samples", "anchors": ["pelicun/model/loss_model.py:LossModel._apply_replacement_thresholds"]}
{"id": "C53", "title": "Combining losses uses the table axes in the stated order", "statement": "Combining the losses of a pair of components reads the combination table with the first named component along the first axis and the second along the second axis, in every run.", "quantifier": "every combination table, pair of components and hash seed", "why_tests_cant": "set iteration order depends on the interpreter's hash seed", "anchors": ["pelicun/model/loss_model.py:LossModel._loss_combination_add_combinable"]}
{"id": "C54", "title": "Aggregated repair time: parallel is never longer than sequential", "statement": "Aggregating nonnegative losses, the parallel repair time is the largest location total and the sequential one the sum of the location totals, hence parallel <= sequential <= number of locations times parallel; cost and other decision variables are plain sums and nothing is lost.", "quantifier": "every loss sample", "why_tests_cant": "all samples", "anchors": ["pelicun/model/loss_model.py:LossModel._aggregate_sample"]}
{"id": "C55", "title": "Loss-function losses are independent of the block subdivision", "statement": "The loss of a performance group from loss functions with deterministic consequences is the same for any number of blocks it is divided into.", "quantifier": "every quantity, block count and median loss", "why_tests_cant": "all block counts", "anchors": ["pelicun/model/loss_model.py:RepairModel_LF._calc_median_consequence"]}
{"id": "C56", "title": "Bounded multilinear consequences stay between their plateaus and never increase with quantity", "statement": "A quantity-dependent unit consequence given by points is the first value below the first quantity, the last value above the last quantity, and between them never leaves the range of the neighbouring points; if given values do not increase neither does the consequence.", "quantifier": "every list of points and quantity", "why_tests_cant": "a continuum", "anchors": ["pelicun/model/loss_model.py:_prep_bounded_multilinear_median_DV"]}
{"id": "C57", "title": "Missing consequence parameters are reported exactly", "statement": "The reported missing parameters are exactly the required (component, decision variable) pairs that no source defines.", "quantifier": "every loss map and parameter table", "why_tests_cant": "all tables", "anchors": ["pelicun/model/loss_model.py:LossModel._ensure_loss_parameter_availability"]}
{"id": "C58", "title": "Consequence scaling multiplies each loss by the factors of the matching rows", "statement": "Each loss value is multiplied by the product of the scale factors of the rows whose decision variable, component, location and direction match it and is otherwise unchanged; the order of rows does not matter.", "quantifier": "every scaling table and loss sample", "why_tests_cant": "all tables", "anchors": ["pelicun/model/loss_model.py:LossModel.consequence_scaling", "pelicun/model/loss_model.py:LossModel._apply_consequence_scaling"]}
{"id": "C59", "title": "Collapse limits drop exactly the offending realizations", "statement": "Realizations in which some demand of a limited type exceeds the limit are removed, all others are kept unchanged in their order.", "quantifier": "every demand sample and limits", "why_tests_cant": "all samples", "anchors": ["pelicun/assessment.py:DLCalculationAssessment.calculate_demand"]}
{"id": "C60", "title": "Unneeded replacement consequences are removed", "statement": "When no replacement carbon or energy is configured and no consequence is available, the corresponding replacement entry is removed from the consequence table.", "quantifier": "every consequence table and configuration", "why_tests_cant": "rebinding of a local variable is not visible in the function's own tests", "anchors": ["pelicun/assessment.py:_loss__add_replacement_carbon", "pelicun/assessment.py:_loss__add_replacement_energy"]}
{"id": "C61", "title": "User-supplied loss maps are respected for collapse", "statement": "A consequence that the user's loss map assigns to collapse or irreparable damage is used in the loss calculation.", "quantifier": "every user loss map", "why_tests_cant": "both key spellings are allowed", "anchors": ["pelicun/assessment.py:DLCalculationAssessment.calculate_loss"]}
{"id": "C62", "title": "Unit scale factors honour leading quantities", "statement": "The scale factor of 'q unit' is q times the factor of the unit, that of a plain unit its factor, and unknown units and malformed strings are refused.", "quantifier": "every unit string and table", "why_tests_cant": "all strings", "anchors": ["pelicun/assessment.py:AssessmentBase.calc_unit_scale_factor"]}
{"id": "C63", "title": "Demand units are assigned by demand type", "statement": "Every demand column gets the unit of its demand type: acceleration types length/s2, velocity types length/s, displacement types length, drift-like types unitless; each column gets exactly one unit.", "quantifier": "every demand table", "why_tests_cant": "all tables", "anchors": ["pelicun/assessment.py:_add_units"]}
{"id": "C64", "title": "Selecting a built-in damage process never changes it for later assessments", "statement": "Running an assessment leaves the built-in damage processes unchanged so that a second assessment in the same session behaves as if it was the first.", "quantifier": "every history of assessments in one session", "why_tests_cant": "histories", "anchors": ["pelicun/assessment.py:DLCalculationAssessment.calculate_damage"]}
{"id": "C65", "title": "Runs in one session do not influence each other's outputs", "statement": "The set of outputs configured for an asset depends only on its own configuration and command-line options and not on assets processed earlier by the same process.", "quantifier": "every history of configuration-parsing calls", "why_tests_cant": "histories; module level dictionaries are shared", "anchors": ["pelicun/tools/DL_calculation.py:_parse_config_file"]}
{"id": "C66", "title": "Result files in the output folder stem from the last run", "statement": "After a run, each result file present in the output folder was written by that run; unrelated files are untouched.", "quantifier": "every initial folder content and every output configuration", "why_tests_cant": "folder histories", "anchors": ["pelicun/tools/DL_calculation.py:_remove_existing_files", "pelicun/tools/DL_calculation.py:_create_json_files_if_requested", "pelicun/tools/DL_calculation.py:_remove_csv_files_if_not_requested"]}
{"id": "C67", "title": "Condensed damage output reports the governing damage state", "statement": "Per component, location and realization the condensed output is the highest damage state with positive quantity and 0 if there is none, NaN only if no damage state is defined.", "quantifier": "every damage sample", "why_tests_cant": "all samples", "anchors": ["pelicun/tools/DL_calculation.py:_damage_save"]}
{"id": "C68", "title": "ID filters select exactly the listed ids", "statement": "A filter string of integers and ranges selects exactly the listed ids in increasing order without duplicates; malformed parts and decreasing ranges are refused.", "quantifier": "every filter string (one that lists no id at all selects the whole inventory)", "why_tests_cant": "all strings", "anchors": ["pelicun/tools/regional_sim.py:parse_id_filter"]}
{"id": "C69", "title": "Regional results do not depend on the schedule", "statement": "The regional simulation result tables list every building exactly once, in inventory order, and are the same for every chunk size, completion order of the parallel jobs and directory listing order.", "quantifier": "every inventory with unique ids, chunk size and schedule", "why_tests_cant": "schedules", "anchors": ["pelicun/tools/regional_sim.py:regional_sim"]}
{"id": "C70", "title": "Intensity measures keep their labels", "statement": "In a regional simulation the values in a demand column labelled with an intensity measure are interpolated from that intensity measure of the grid.", "quantifier": "every order of intensity measures in the configuration", "why_tests_cant": "all orders and numbers of intensity measures", "anchors": ["pelicun/tools/regional_sim.py:process_buildings_chunk"]}
{"id": "C71", "title": "Nearest-neighbour interpolation is a weighted average", "statement": "The interpolated value is between the smallest and the largest value of the neighbours, reproduces a constant field exactly, and weights are positive and add up to one, for each weighting scheme.", "quantifier": "every neighbour set and values", "why_tests_cant": "a continuum", "anchors": ["pelicun/tools/NNR.py:NNR"]}
{"id": "C72", "title": "An interrupted model-library download is never taken for a complete one", "statement": "Whatever the point at which a download is interrupted, later use either completes the download or reports the problem; it never works with a partial or mixed library as if complete.", "quantifier": "every crash point and history of downloads", "why_tests_cant": "crash points and histories", "anchors": ["pelicun/tools/dlml.py:download_data_files", "pelicun/tools/dlml.py:check_dlml_data"]}
{"id": "C73", "title": "An uninterrupted cached update yields the same library as a full download", "statement": "After a successful cached update to a version every listed model file has the content of that version, no matter which version was installed before and whether local files were altered.", "quantifier": "every previous cache, local files, pair of versions", "why_tests_cant": "histories", "anchors": ["pelicun/tools/dlml.py:download_data_files"]}
{"id": "C74", "title": "Every component row is converted with its own unit", "statement": "When a component model is loaded, the quantity parameters and limits of each row are multiplied with the scale factor of the unit given in that row.", "quantifier": "every component table", "why_tests_cant": "all tables, also with several rows per component", "anchors": ["pelicun/model/asset_model.py:AssetModel.load_cmp_model", "pelicun/model/pelicun_model.py:PelicunModel._convert_marginal_params"]}
{"id": "C75", "title": "Realizations flagged in the ERROR column are removed, and only those", "statement": "Loading a demand sample with an ERROR column keeps exactly the realizations that are not flagged, in order, for every demand, and drops the ERROR column itself.", "quantifier": "every demand sample and flag pattern", "why_tests_cant": "all samples", "anchors": ["pelicun/model/demand_model.py:DemandModel.load_sample"]}
{"id": "C76", "title": "The availability check refuses exactly the requirements that the demand sample cannot serve", "statement": "The check of the required demands succeeds exactly when every required demand, with its type, location and direction, can be taken from the demand sample; otherwise it is refused with a message before anything is evaluated.", "quantifier": "every demand sample and list of required demands", "why_tests_cant": "all combinations of required and available demands", "anchors": ["pelicun/model/demand_model.py:_verify_edps_available", "pelicun/model/demand_model.py:_assemble_required_demand_data"]}
{"id": "C77", "title": "A demand expression is evaluated on the demands of its component", "statement": "The expression of a component is evaluated with X1, X2, ... being its demands in the order listed, text with characters outside of the allowed set never reaches the evaluator, and components without an expression are not affected by those that have one.", "quantifier": "every expression, list of demands and demand sample", "why_tests_cant": "all expressions and samples", "anchors": ["pelicun/model/demand_model.py:_get_required_demand_type", "pelicun/model/demand_model.py:_assemble_required_demand_data", "pelicun/model/demand_model.py:_clean_up_expression"]}
{"id": "C78", "title": "The loss sample with a given seed is the same in every run", "statement": "With the same inputs and the same seed, two runs of a loss assessment draw the random deviations of the consequences in the same order, so they produce the same loss sample, whatever the hash seed of the Python process.", "quantifier": "every loss map, set of components and set iteration order", "why_tests_cant": "iteration orders of sets vary between processes", "anchors": ["pelicun/model/loss_model.py:LossModel.add_loss_map", "pelicun/model/loss_model.py:RepairModel_DS._create_DV_RVs"]}
{"id": "C79", "title": "A component with loss functions may be mapped to any loss-function consequence", "statement": "If the loss map sends a component to a consequence that has loss functions, the losses of the component are calculated with these loss functions, whatever the name of the consequence.", "quantifier": "every loss map, set of loss functions and component table", "why_tests_cant": "all maps", "anchors": ["pelicun/model/loss_model.py:RepairModel_LF.calculate", "pelicun/model/loss_model.py:RepairModel_LF._calc_median_consequence"]}
{"id": "C80", "title": "Losses of damaged components follow the documented formula with economies of scale", "statement": "The loss of a damaged quantity is the quantity times the unit consequence of its damage state at the governing quantity, times its random deviation. The governing quantity is the damaged quantity of the component added up over floors and damage states as the two economy-of-scale options say. Every damaged quantity with a defined consequence has its loss in the result.", "quantifier": "every damage sample, parameter table, loss map and setting of the two options", "why_tests_cant": "all samples and tables", "anchors": ["pelicun/model/loss_model.py:RepairModel_DS.calculate", "pelicun/model/loss_model.py:RepairModel_DS._calc_median_consequence", "pelicun/model/loss_model.py:RepairModel_DS._create_DV_RVs"]}
{"id": "C81", "title": "Automatic loss maps", "statement": "With the automatic approach a component of the asset other than collapse is assigned a consequence exactly if the consequence database has the one for it: the one with its own id, or, for the Hazus earthquake approaches, the one of its class and the occupancy type; collapse and irreparable damage are assigned the replacement consequence.", "quantifier": "every approach, occupancy type, consequence database and set of components", "why_tests_cant": "all databases and assets", "anchors": ["pelicun/assessment.py:_loss__map_auto", "pelicun/assessment.py:DLCalculationAssessment.calculate_loss"]}
{"id": "C82", "title": "Grouped damage output is the total per component", "statement": "Without condensing, the grouped damage output has one column per component; the value in a realization is the sum of all damaged quantities of the component that are not missing, over locations, directions and damage states, and is missing only if all are missing.", "quantifier": "every damage sample, with or without aggregation of colocated components", "why_tests_cant": "all samples and groupings", "anchors": ["pelicun/tools/DL_calculation.py:_damage_save"]}
{"id": "C83", "title": "Components for collapse and irreparable damage are added once, and nothing else changes", "statement": "Calculating the asset adds a collapse component and, if the configuration and the demands call for it, components that collect excessive demands and residual drifts at every location and direction of those demands, each with a quantity of one; all components of the user's table are loaded as they would be without the additions.", "quantifier": "every component table, demand sample and configuration", "why_tests_cant": "all tables and sets of demands", "anchors": ["pelicun/assessment.py:DLCalculationAssessment.calculate_asset"]}
{"id": "C84", "title": "Names of built-in models stand for files of the model library", "statement": "A path that begins with PelicunDefault/ and the name of a method stands for the file of that name in the folder of the method; unknown methods are refused; legacy file names stand for the current ones; all other paths and tables are left as they are.", "quantifier": "every list of paths and every path text", "why_tests_cant": "all texts", "anchors": ["pelicun/file_io.py:substitute_default_path"]}
{"id": "C85", "title": "Every component gets its damage parameters from the source with the highest priority", "statement": "In calculate_damage the parameters of a component are those of the user's file if it has them, otherwise of the last named database that has them, otherwise the fragilities that the assessment adds. The added fragilities have the configured capacity and are compared with the configured demand at the location of the component, and the placeholders among them never trigger.", "quantifier": "every list of databases, user file, configuration and set of components", "why_tests_cant": "all combinations of sources and configurations", "anchors": ["pelicun/assessment.py:DLCalculationAssessment.calculate_damage", "pelicun/model/damage_model.py:DamageModel.load_model_parameters"]}
{"id": "C86", "title": "Residual drifts are inferred for the configured directions only, and the constant demand is always there", "statement": "After calculate_demand the demand sample has all generated demands with their values and units, the residual drifts estimated from the peak drift of the same location for every direction in the configuration and for no other, and the constant demand ONE, which is one in every realization. Configurations with an unknown method, an unknown direction or a yield drift that is not a number are refused.", "quantifier": "every generated demand sample, residual drift configuration and estimator", "why_tests_cant": "all samples and configurations", "anchors": ["pelicun/assessment.py:DLCalculationAssessment.calculate_demand", "pelicun/model/demand_model.py:DemandModel.estimate_RID", "pelicun/model/demand_model.py:DemandModel.load_sample"]}
{"id": "C87", "title": "Component, damage and loss samples survive saving and loading", "statement": "A component quantity sample, a damage sample or a loss sample that is saved to a file and loaded from it again has the same columns and values, and the units of the components and decision variables are restored; whatever can be saved can be loaded.", "quantifier": "every sample with any components, locations, directions, damage states and units", "why_tests_cant": "all samples and units", "anchors": ["pelicun/model/asset_model.py:AssetModel.save_cmp_sample", "pelicun/model/asset_model.py:AssetModel.load_cmp_sample", "pelicun/model/damage_model.py:DamageModel.save_sample", "pelicun/model/damage_model.py:DamageModel.load_sample", "pelicun/model/loss_model.py:LossModel.save_sample", "pelicun/model/loss_model.py:RepairModel_DS.load_sample", "pelicun/model/loss_model.py:LossModel.sample"]}
{"id": "C88", "title": "Generated demand and component samples follow the model", "statement": "The sample that a demand model (or an asset model) generates has exactly one column for each demand (component) of the model, with as many values as realizations were asked for. With PreserveRawOrder, realization i of all empirical demands is row i mod R of the raw data with R rows; without it every value is a raw value of the same demand, and Latin hypercube sampling uses every raw row equally often when the sizes allow. Deterministic quantities are constant; all others are transforms of their own stratified uniform sample. A demand model that is saved and loaded generates from the same empirical data and correlation.", "quantifier": "every parameter table, raw data, correlation, number of realizations, sampling method and random draw", "why_tests_cant": "all models, data and draws", "anchors": ["pelicun/model/demand_model.py:DemandModel.generate_sample", "pelicun/model/demand_model.py:DemandModel.load_model", "pelicun/model/demand_model.py:DemandModel.save_model", "pelicun/model/asset_model.py:AssetModel.generate_cmp_sample", "pelicun/uq.py:RandomVariableRegistry.generate_sample"]}
{"id": "C89", "title": "The sample of damage states follows the fragilities", "statement": "The damage calculation gives exactly one damage state to every block of every performance group that has damage parameters and is not missing, in every realization. It is zero if no capacity of the block is below the demand of the performance group, otherwise one of the damage states of the highest limit state whose capacity is. All limit states of a block use the same uniform numbers, and no two blocks share them. With Latin hypercube sampling and a constant demand, the share of realizations with a damage state of a limit state or a higher one is the value of the fragility curve at the demand, up to rounding to whole realizations.", "quantifier": "every parameter table, demand sample, number of blocks, batch size, sampling method and random draw", "why_tests_cant": "all tables, samples and draws", "anchors": ["pelicun/model/damage_model.py:DamageModel_DS.obtain_ds_sample", "pelicun/model/damage_model.py:DamageModel_DS._generate_dmg_sample", "pelicun/model/damage_model.py:DamageModel_DS._create_dmg_RVs", "pelicun/model/damage_model.py:DamageModel_DS._evaluate_damage_state"]}
{"id": "C90", "title": "Damaged quantities follow the demands, the fragilities and the damage process", "statement": "The damage calculation as a whole gives every performance group, in every realization, its component quantity times the share of its blocks in a damage state; without a damage process these quantities add up to the component quantity, with one they never exceed it and are never negative. With Latin hypercube sampling, constant demands and quantities, the average quantity in the damage states of a limit state and above is the quantity times the fragility, up to rounding to whole realizations. With the built-in damage processes, collapse leaves no quantity of other components in any damage state, and excessive demand triggers collapse. Higher demands with the same draws never reduce the quantity above any damage state. Asking for all damage states only adds columns of zeros for states that did not occur.", "quantifier": "every asset, parameter table, demand sample, damage process, batch size and random draw", "why_tests_cant": "all assets, samples, processes and draws", "anchors": ["pelicun/model/damage_model.py:DamageModel.calculate", "pelicun/model/damage_model.py:DamageModel_DS.prepare_dmg_quantities", "pelicun/model/damage_model.py:DamageModel_DS.complete_ds_cols", "pelicun/model/damage_model.py:DamageModel_DS.perform_dmg_task"]}
{"id": "C91", "title": "Random repair consequences have the distributions of the database", "statement": "In the loss calculation each damaged quantity has its own random deviation for each decision variable: it is never negative, it has the normal or lognormal distribution of the consequence database, cut at zero, and with Latin hypercube sampling the share of realizations below a value is the probability of that distribution, up to rounding to whole realizations. With a correlation of cost and time, the deviations of cost and time of the same damaged quantity, and no others, are correlated. Losses are never negative.", "quantifier": "every consequence table, damage sample, correlation, sampling method and random draw", "why_tests_cant": "all tables, samples and draws", "anchors": ["pelicun/model/loss_model.py:RepairModel_DS.calculate", "pelicun/model/loss_model.py:RepairModel_DS._create_DV_RVs", "pelicun/uq.py:RandomVariableRegistry.generate_sample"]}
{"id": "C92", "title": "Losses from loss functions have random deviations with the distributions of the database", "statement": "In the loss calculation with loss functions each block of a performance group has its own random deviation for each decision variable: it is never negative, it has the normal (mean 1) or lognormal (median 1) distribution of the consequence database, cut at zero, and with Latin hypercube sampling the share of realizations below a value is the probability of that distribution, up to rounding to whole realizations. The loss of the performance group is the loss function at the demand times the quantity times the mean deviation of its blocks. With a correlation of cost and time, the deviations of cost and time of the same block, and no others, are correlated. Losses are never negative.", "quantifier": "every table of loss functions, demand sample, number of blocks, correlation, sampling method and random draw", "why_tests_cant": "all tables, samples and draws", "anchors": ["pelicun/model/loss_model.py:RepairModel_LF.calculate", "pelicun/model/loss_model.py:RepairModel_LF._create_DV_RVs", "pelicun/model/loss_model.py:RepairModel_LF._calc_median_consequence", "pelicun/uq.py:RandomVariableRegistry.generate_sample"]}
{"id": "C93", "title": "Consequence and damage parameters mean the same in every unit", "statement": "Loading consequence parameters converts them to base units without changing their meaning: repairing a quantity costs the same as calculated by hand in the units of the table, for numbers, for curves over the quantity and for distributions; loss functions give the same loss for the same demand. The same consequence in other units gives the same parameters, unknown units are refused, and nothing else in the table changes.", "quantifier": "every consequence table, table of units and loss map", "why_tests_cant": "all tables and units", "anchors": ["pelicun/model/pelicun_model.py:PelicunModel._convert_marginal_params", "pelicun/model/loss_model.py:LossModel.load_model_parameters", "pelicun/model/loss_model.py:RepairModel_DS.convert_loss_parameter_units", "pelicun/model/loss_model.py:RepairModel_LF.convert_loss_parameter_units"]}
{"id": "C94", "title": "Loading more parameters leaves the earlier ones as they are", "statement": "After load_model_parameters of the damage model or of the loss model has been called, calling it again with parameters of other components or consequences does not change the parameters loaded before, as long as they are still in use; a component defined again keeps its first definition.", "quantifier": "every sequence of calls, with any sources, sets of components and loss maps", "why_tests_cant": "all sequences of calls", "anchors": ["pelicun/model/damage_model.py:DamageModel.load_model_parameters", "pelicun/model/loss_model.py:LossModel.load_model_parameters", "pelicun/model/loss_model.py:RepairModel_DS.convert_loss_parameter_units"]}
{"id": "C95", "title": "The losses belong to the current demands and damage", "statement": "The losses after a loss calculation are those that a new loss model would calculate from the current demand sample, asset and damage sample, whatever was calculated, scaled or loaded before; a calculation fails or succeeds independently of the history, and a calculation that fails does not change the losses.", "quantifier": "every sequence of calculations, scalings and loads, and every state of the assessment at each of them", "why_tests_cant": "all histories", "anchors": ["pelicun/model/loss_model.py:LossModel.calculate", "pelicun/model/loss_model.py:RepairModel_DS.calculate", "pelicun/model/loss_model.py:RepairModel_LF.calculate"]}
{"id": "C96", "title": "A demand model that is saved and loaded has the same distributions", "statement": "A demand model that is saved and loaded again has the same demands with the same units, families, parameters and truncation limits. The file has them in the units of the user. Models and files whose units do not belong to their demands are refused.", "quantifier": "every set of demands, distributions, parameters and units", "why_tests_cant": "all models and units", "anchors": ["pelicun/model/demand_model.py:DemandModel.save_model", "pelicun/model/demand_model.py:DemandModel.load_model", "pelicun/model/pelicun_model.py:PelicunModel._convert_marginal_params"]}
{"id": "C97", "title": "The JSON results have the contents of the result tables", "statement": "When JSON output is asked for, each result table is written as a JSON object in which every column is found under the parts of its label, with the numbers of the table (a list for samples, by name of the statistic for statistics), nothing else is added, and the units are listed by column.", "quantifier": "every result table: any number of rows, columns with labels of any depth, missing values and units", "why_tests_cant": "all tables", "anchors": ["pelicun/tools/DL_calculation.py:convert_df_to_dict", "pelicun/tools/DL_calculation.py:_create_json_files_if_requested"]}
{"id": "C98", "title": "The statistics describe the sample", "statement": "The statistics of a sample are the number of values, their mean, standard deviation, smallest and largest value, the standard deviation of their logarithms (if all are positive) and percentiles. The percentiles are between the smallest and the largest value, increase, and have the right share of the values below and above them. Missing values and the order of the realizations do not matter, and in another unit the statistics are those in that unit.", "quantifier": "every sample of any size, with missing values, and every unit", "why_tests_cant": "all samples", "anchors": ["pelicun/base.py:describe"]}
{"id": "C99", "title": "Regional losses are the losses of the buildings", "statement": "A regional simulation reports repair costs and times for every building, once: in each realization they are the total of the losses of the damaged components of the building, calculated with the consequences of its occupancy class (Hazus earthquake) or of the component (other methods), and zero if the building is not damaged.", "quantifier": "every inventory, damage sample, consequence database and random draw", "why_tests_cant": "all inventories, samples and draws", "anchors": ["pelicun/tools/regional_sim.py:_calculate_losses_hazus_eq", "pelicun/tools/regional_sim.py:_calculate_losses_general", "pelicun/tools/regional_sim.py:unique_list"]}
{"id": "C100", "title": "Regional damage results are the damage states of the buildings", "statement": "A regional simulation reports for every building of the damage sample, once and ordered by number, the damage state it is in in each realization; with several components this is the sum of their governing damage states. A sample in which a component is missing in some realization is refused.", "quantifier": "every damage sample: any number of buildings, components and realizations", "why_tests_cant": "all samples", "anchors": ["pelicun/tools/regional_sim.py:process_buildings_chunk"]}
{"id": "C101", "title": "Saved component and loss samples and the summary contain the totals of the results", "statement": "With colocated results aggregated, each saved component or loss sample has for every label without its last part, once and in order, the total over the results with this label; the losses grouped by decision variable, consequence and component are the totals of all their losses, with or without this option; a total has the unit of its parts. The summary contains the aggregated losses unchanged, and for collapse and irreparable damage the quantity in their damage state, or zero without such results.", "quantifier": "every sample, any number of columns and realizations, missing values anywhere, both options", "why_tests_cant": "all samples", "anchors": ["pelicun/tools/DL_calculation.py:_result_summary", "pelicun/tools/DL_calculation.py:_asset_save", "pelicun/tools/DL_calculation.py:_loss_save"]}
{"id": "C102", "title": "The check for a new model library reports an update exactly if a newer one is available", "statement": "Importing the package warns about an update of the model library exactly if the latest release is newer than the installed one, as far as this was known at the last check of the server, which is less than a day ago and not before the last download.", "quantifier": "every history of checks, failed checks and downloads of releases or commits, with or without the cache, at any times", "why_tests_cant": "all histories and times", "anchors": ["pelicun/tools/dlml.py:check_dlml_version", "pelicun/tools/dlml.py:_resolve_version_to_commit_sha", "pelicun/tools/dlml.py:download_data_files", "pelicun/tools/dlml.py:validate_commit_sha"]}
{"id": "C103", "title": "Distributions fitted to a sample are the most likely ones", "statement": "A fit of normal and lognormal distributions to samples returns the parameters that make the samples most likely, and the correlations of the samples; known samples are fitted in the same way with or without detection limits; the fit is the same in every unit; the samples passed are not changed.", "quantifier": "every number of variables and samples, all real samples, all families and limits, any minimization that does not get worse", "why_tests_cant": "all real samples, limits and units", "anchors": ["pelicun/uq.py:fit_distribution_to_sample", "pelicun/uq.py:_neg_log_likelihood", "pelicun/uq.py:_get_theta", "pelicun/uq.py:_get_limit_probs", "pelicun/uq.py:_get_std_samples", "pelicun/uq.py:_get_std_corr_matrix", "pelicun/model/demand_model.py:DemandModel.calibrate_model"]}
{"id": "C104", "title": "Calibrated demands have the parameters of their own samples and the uncertainty asked for", "statement": "After a calibration each demand has, in the order of the sample, its own family and the parameters fitted to its own samples; its variance (of logarithms for lognormal demands) is that of the samples plus the square of the additional uncertainty given for it, in the unit given; demands kept empirical have no parameters; the correlation of two fitted demands, under their labels, is that of their samples.", "quantifier": "any number of demands and realizations, all samples, every assignment of families and additional uncertainties", "why_tests_cant": "all samples and settings", "anchors": ["pelicun/model/demand_model.py:DemandModel.calibrate_model", "pelicun/model/demand_model.py:DemandModel._create_RVs", "pelicun/uq.py:fit_distribution_to_sample", "pelicun/uq.py:Normal_COV"]}
{"id": "C105", "title": "A distribution fitted to its own percentiles has the given values", "statement": "If the values are those of a normal or lognormal distribution at the given percentiles and its family is among the candidates, the fit to percentiles returns a distribution with these values at all percentiles; with one candidate family it returns the parameters of the distribution; otherwise one of the families with the smallest squared error.", "quantifier": "any number of percentiles between 0 and 1 in any order, all parameters, any list of candidates, any minimization that does not get worse", "why_tests_cant": "all real parameters and percentiles", "anchors": ["pelicun/uq.py:fit_distribution_to_percentiles", "pelicun/uq.py:_OLS_percentiles"]}
{"id": "C106", "title": "A configuration is accepted exactly if it is complete, and what the user wrote is kept", "statement": "A configuration of a loss calculation is accepted exactly if it conforms to the schema and has what the calculation needs; the accepted configuration has all entries the user gave, with documented defaults only where an entry is missing, the demand file of the call only if the configuration has none, and the number of samples asked for; a configuration without its calculation part is generated with the demands, the number of samples and the components of the call, and the user's other entries are unchanged.", "quantifier": "all configurations (trees of any depth and size), all arguments of the call, all default outputs, all results of the scripts", "why_tests_cant": "all trees of configuration entries", "anchors": ["pelicun/tools/DL_calculation.py:_parse_config_file", "pelicun/settings/input_schema.json", "pelicun/base.py:update", "pelicun/base.py:is_unspecified"]}
{"id": "C107", "title": "The probability of a box is the probability that all variables are in it", "statement": "orthotope_density of a set of random variables is the probability that each variable is above its lower limit and not above its upper limit, for the marginal distributions, truncation limits and correlations of the set (a Gaussian copula), for the whole set and for any selection of its variables; missing limits do not restrict; mvn_orthotope_density is the same for normal variables with given means and covariances.", "quantifier": "all sets of variables, all families and correlations, all selections, all boxes, any number of dimensions", "why_tests_cant": "the result of a numerical integration is compared with stored numbers for a few boxes; the statement is about all boxes and all correlations", "anchors": ["pelicun/uq.py:mvn_orthotope_density", "pelicun/uq.py:RandomVariableSet.orthotope_density", "pelicun/uq.py:RandomVariableSet.Rho"]}
{"id": "C108", "title": "Parameters given for each realization are used for that realization", "statement": "A random variable whose parameters or truncation limits are given for each realization (an array with two dimensions) has in realization i the value of its family with the parameters and limits of row i, as if row i were given alone; a capacity with one scaling operation for each realization has in realization i the median changed by operation i; arrays of another size are refused.", "quantifier": "all arrays of parameters and limits of any number of realizations, constant or not, all uniform samples", "why_tests_cant": "all sizes and combinations of constant and variable arrays", "anchors": ["pelicun/uq.py:RandomVariable._prepare_theta_and_truncation_limit_arrays", "pelicun/uq.py:NormalRandomVariable.inverse_transform", "pelicun/uq.py:LogNormalRandomVariable.inverse_transform", "pelicun/uq.py:DeterministicRandomVariable.inverse_transform", "pelicun/uq.py:Normal_COV", "pelicun/model/damage_model.py:DamageModel_Base._create_dmg_RVs"]}
{"id": "C109", "title": "The consequences of an assessment come from the source with the highest priority", "statement": "In a loss calculation every consequence of the loss map is the one of the file of the user if it is there, else the one of the database that is named last among those that have it, else the replacement consequence of the configuration; a database is the file of a method with the consequences of damage states or, without it, with loss functions. A consequence that some source defines completely is never reported as missing, and with the automatic approach each component with a consequence in a source is in the map. Unknown databases, a placeholder without its folder and maps that are not given are refused.", "quantifier": "all lists of databases, files of the library and of the user, configurations, and assets", "why_tests_cant": "all combinations of sources with overlapping definitions", "anchors": ["pelicun/assessment.py:DLCalculationAssessment.load_consequence_info", "pelicun/assessment.py:DLCalculationAssessment.calculate_loss", "pelicun/assessment.py:_loss__map_user", "pelicun/assessment.py:AssessmentBase.get_default_data", "pelicun/model/loss_model.py:LossModel.load_model_parameters"]}
{"id": "C110", "title": "The aggregated losses have the decision variables that are selected", "statement": "A run of the tool reports, for each decision variable that the configuration sets to true, the total of its losses in its unit (for the time, one after the other and in parallel), and nothing for other decision variables; an asset without losses has zero for each. With thresholds for replacement each active decision variable has either its replacement value or its total. Thresholds and combinations for decision variables that are not active, and unknown methods of combination, are refused.", "quantifier": "all configurations, loss samples, thresholds, combination tables and iteration orders of sets", "why_tests_cant": "all configurations and samples", "anchors": ["pelicun/tools/DL_calculation.py:_parse_decision_variables", "pelicun/assessment.py:DLCalculationAssessment.calculate_loss", "pelicun/model/loss_model.py:LossModel.aggregate_losses", "pelicun/model/loss_model.py:LossModel._validate_input_replacement_thresholds", "pelicun/model/loss_model.py:LossModel._validate_input_loss_combination"]}
{"id": "C111", "title": "Each option of the command line has the effect it asks for", "statement": "On the command line of a calculation each option has the effect it asks for, in any order and in the forms 'name value' and 'name=value'; of several the last one counts, what is not asked for has its default, a switch without a value is on. The beginning of a name stands for the option if it is the only one that begins like this. Texts that belong to no option, unknown and unclear names, and words that are neither on nor off are refused. False in part: --coupled_EDP without a value has no effect, and with a configuration that has an entry DL the options for realizations, coupled demands and details have none.", "quantifier": "all command lines (lists of texts), all configurations", "why_tests_cant": "all command lines and orders of options", "anchors": ["pelicun/tools/DL_calculation.py:main", "pelicun/base.py:str2bool", "pelicun/tools/DL_calculation.py:_parse_config_file"]}
{"id": "C112", "title": "An update of the model library is made to the commit that was asked for", "statement": "pelicun dlml update with a release, or with 'latest', downloads the files of the commit that the tag of the release stands for; with 'commit s' it downloads the commit s if s is seven hexadecimal digits, or the newest commit for 'commit latest'; everything else is refused. It writes the files of the list of model files, which are in the data folder if the list has no absolute entries and no '..'. False in part: if the request for the tag fails, the branch of the release is downloaded instead and later updates do nothing although the branch moves; of tags that point to tags the object is taken for the commit.", "quantifier": "all repositories, answers of the server, targets, histories of the data folder and lists of files", "why_tests_cant": "all repositories and all failures of requests", "anchors": ["pelicun/cli.py:main", "pelicun/tools/dlml.py:dlml_update", "pelicun/tools/dlml.py:_resolve_version_to_commit_sha", "pelicun/tools/dlml.py:download_data_files"]}
{"id": "C113", "title": "Tables mean the same wherever they come from, and every number is in base units", "statement": "load_data returns each column whose cells are numbers or missing (including the texts that stand for missing values) as numbers, each times the factor of the unit of its variable, and other columns as they are; the unit is taken from the first column (variables in rows) or row (variables in columns) that reads Units in any case, units that are missing or unknown count as one, and the units given are returned. Labels are split at dashes and padded, rows and columns are sorted by label with their cells, or the rows are numbered in the given order. A CSV file means the same as a data frame with the same texts. Files of other types, missing files, other objects and tables without data are refused. False in part: with variables in columns and a table of units, a column of text is refused instead of being kept; the name of a unit that is a number is recognized in a data frame but not in a file.", "quantifier": "all tables of any size with numbers, text and missing cells, both orientations, all tables of units and all sources", "why_tests_cant": "all tables and all mixtures of numbers, text and missing cells", "anchors": ["pelicun/file_io.py:load_data", "pelicun/file_io.py:load_from_file", "pelicun/base.py:convert_dtypes", "pelicun/base.py:check_if_str_is_na", "pelicun/base.py:with_parsed_str_na_values", "pelicun/base.py:convert_to_MultiIndex"]}
{"id": "C114", "title": "Variables that are sampled together keep their distributions and have the correlation asked for", "statement": "When the variables of a set are sampled with a correlation matrix, the normal scores of each realization have a joint normal distribution with zero means and exactly the given matrix, entry by entry for the variables as listed by the user; each variable keeps its own distribution, as if it were sampled alone. Variables with correlation one have the same uniform numbers and those with minus one mirrored numbers in every realization; with the identity matrix nothing changes; variables outside the set are not affected. False in part: a matrix with unit diagonal that is not positive semidefinite is accepted, and then at least one variable does not keep its distribution.", "quantifier": "all numbers and orders of variables, all symmetric matrices (also singular ones, where the Cholesky decomposition fails), all realizations; all outcomes of the random generator weighted with their probability", "why_tests_cant": "all matrices and the joint distribution of infinitely many outcomes", "anchors": ["pelicun/uq.py:RandomVariableSet.apply_correlation", "pelicun/uq.py:RandomVariableSet.__init__", "pelicun/uq.py:RandomVariableRegistry.generate_sample"]}
{"id": "C115", "title": "Damage states occur with the probabilities of the fragility curves", "statement": "With Monte Carlo sampling, the probability that a block of a component reaches a limit state or a higher one in a realization is the highest value of their fragility curves at the demand of that realization; it stays undamaged with one minus the highest curve; a damage state has the difference between the curve of its limit state (with those above) and the curves above, divided among the damage states of the limit state by their weights. Given the demands, the damage states of different blocks and of different realizations are independent, so that the share of realizations that reach a limit state is off its probability by eps or more with probability at most p(1-p)/(n eps^2).", "quantifier": "all components with any number of limit states and damage states, all fragility families for which the capacity is a function of the uniform number, all performance groups, blocks, batches and realizations; all outcomes of the random generator weighted with their probability", "why_tests_cant": "probabilities over infinitely many outcomes; a test can only compare frequencies with a tolerance", "anchors": ["pelicun/model/damage_model.py:DamageModel_DS.obtain_ds_sample", "pelicun/model/damage_model.py:DamageModel_DS._create_dmg_RVs", "pelicun/model/damage_model.py:DamageModel_DS._evaluate_damage_state", "pelicun/uq.py:RandomVariableRegistry.generate_sample"]}
{"id": "C116", "title": "Damaged quantities have the binomial distribution of independent blocks", "statement": "With Monte Carlo sampling and no damage process, the quantity of a performance group in the damage table that reaches a limit state or a higher one in a realization is the quantity of the group times m/n, where the number m of its n blocks that reach it is binomial with the highest value of the fragility curves of these limit states at the demand as probability p. Its mean is the quantity times p whatever the number of blocks, and its variance is quantity^2 p(1-p)/n: more blocks reduce the scatter and leave the mean. The same holds for the undamaged quantity with 1-p and for the quantity in each single damage state with its probability.", "quantifier": "all components, performance groups, numbers of blocks, batch sizes, realizations, fragility families for which the capacity is a function of the uniform number; all outcomes of the random generator weighted with their probability", "why_tests_cant": "distributions over infinitely many outcomes; a test can only compare moments of one sample with a tolerance", "anchors": ["pelicun/model/damage_model.py:DamageModel.calculate", "pelicun/model/damage_model.py:DamageModel_DS.obtain_ds_sample", "pelicun/model/damage_model.py:DamageModel_DS.prepare_dmg_quantities", "pelicun/uq.py:RandomVariableRegistry.generate_sample"]}
{"id": "C117", "title": "With Latin hypercube sampling, the default, damage has the same probabilities", "statement": "With Latin hypercube sampling each uniform number is uniform between zero and one although the numbers of a variable are stratified. In each realization the damage states of blocks are therefore independent given the demands and have the probabilities given by the fragility curves and weights (as with Monte Carlo sampling), and the damaged quantities of performance groups have the same binomial distributions, means and variances.", "quantifier": "all sample sizes, components, performance groups, blocks, batches and realizations; all permutations and numbers the generator returns, weighted with their probability", "why_tests_cant": "probabilities over infinitely many outcomes, and over all permutations of any size; a test can only compare frequencies with a tolerance", "anchors": ["pelicun/uq.py:RandomVariableRegistry.generate_sample", "pelicun/model/damage_model.py:DamageModel_DS.obtain_ds_sample", "pelicun/model/damage_model.py:DamageModel.calculate", "pelicun/settings/default_config.json"]}
{"id": "C118", "title": "Samples of random variables, demands and quantities have the distributions asked for", "statement": "With Monte Carlo or Latin hypercube sampling, in each realization: a variable that is not in a correlated set is at most z with the probability that the method cdf of its class returns for z (normal, lognormal, uniform, Weibull, with and without limits, and multilinear), variables with different anchors are independent, categories come with their weights, and values of an empirical variable with their share in the data. A normal variable without limits has the normal distribution. The same holds for the columns of a demand sample that are not named in the correlation matrix and for the component quantities.", "quantifier": "all registries, demand models and component tables, sample sizes, realizations, variables and thresholds; all numbers and permutations the generator returns, weighted with their probability", "why_tests_cant": "probabilities over infinitely many outcomes; a test can only compare frequencies with a tolerance", "anchors": ["pelicun/uq.py:RandomVariableRegistry.generate_sample", "pelicun/uq.py:NormalRandomVariable", "pelicun/uq.py:LogNormalRandomVariable", "pelicun/uq.py:UniformRandomVariable", "pelicun/uq.py:WeibullRandomVariable", "pelicun/uq.py:MultilinearCDFRandomVariable", "pelicun/uq.py:EmpiricalRandomVariable", "pelicun/uq.py:MultinomialRandomVariable", "pelicun/model/demand_model.py:DemandModel.generate_sample", "pelicun/model/asset_model.py:AssetModel.generate_cmp_sample"]}
{"id": "C119", "title": "Repair losses have the distributions of the consequence database and are independent", "statement": "In a calculation of repair losses without a correlation of cost and time, with Monte Carlo or Latin hypercube sampling: in each realization the loss of a decision variable for a damaged quantity is at most z with the probability that the distribution of the consequence gives to z divided by the damaged quantity and the unit consequence, where the distribution is the normal distribution with the coefficient of variation of the database cut at zero, or the lognormal distribution with its dispersion. Losses of different decision variables, components, locations, directions and damage states in a realization are independent, whatever the order of the columns and whichever consequences are missing or deterministic.", "quantifier": "all consequence databases, loss maps, decision variables, damage samples of any size, realizations, sets of losses and thresholds; all numbers and permutations the generator returns, weighted with their probability", "why_tests_cant": "probabilities over infinitely many outcomes and all subsets of losses; a test can only compare frequencies with a tolerance", "anchors": ["pelicun/model/loss_model.py:RepairModel_DS.calculate", "pelicun/model/loss_model.py:RepairModel_DS._create_DV_RVs", "pelicun/model/loss_model.py:RepairModel_DS._calc_median_consequence", "pelicun/uq.py:RandomVariableRegistry.generate_sample"]}
{"id": "C120", "title": "A run of the tool calculates what is asked for, in order, and leaves no stale or unrequested tables, wherever it stops", "statement": "A run with an accepted configuration does the calculations the configuration asks for in the order demand, asset, damage, loss, summary, and if it stops early, the first of them. Whenever it stops - at its end, with an exception in any step, or because the process is stopped in any step, before or after the step has changed a file - each result table in the output folder is one that the configuration asks for, was written by this run and belongs to a calculation this run has done (or the run stopped before its first calculation, while removing older tables), a JSON file is an older one or was asked for, and no other file is touched. A run that ends without exception leaves exactly the tables and JSON files asked for; without the CSV format, of the tables only the summary. A refused configuration leaves the folder as it was. An accepted configuration does not lead to an exception if no step fails.", "quantifier": "all configurations, default outputs and arguments of the call, all contents of the output folder, all points at which a run fails or is stopped", "why_tests_cant": "crash points in every step of every configuration; tests run complete examples in an empty folder", "anchors": ["pelicun/tools/DL_calculation.py:run_pelicun", "pelicun/tools/DL_calculation.py:_remove_existing_files", "pelicun/tools/DL_calculation.py:_demand_save", "pelicun/tools/DL_calculation.py:_asset_save", "pelicun/tools/DL_calculation.py:_damage_save", "pelicun/tools/DL_calculation.py:_loss_save", "pelicun/tools/DL_calculation.py:_summary_save", "pelicun/tools/DL_calculation.py:_create_json_files_if_requested", "pelicun/tools/DL_calculation.py:_remove_csv_files_if_not_requested"]}
{"id": "C121", "title": "Losses from loss functions have the distribution of a mean of independent deviations, and are independent", "statement": "In each realization, the deviations of all blocks of all random losses from loss functions are independent: normal with mean one and the given coefficient of variation, under the condition that they are positive, or lognormal with median one and the given dispersion, under the condition that they are above the smallest number. The loss of a performance group is the value of the loss function at the demand, times the quantity, times the mean of the deviations of the blocks. Hence its mean does not depend on the number of blocks, its variance is divided by the number of blocks, with one block its distribution is that of a deviation, and the losses of different decision variables and performance groups are independent.", "quantifier": "all loss functions with positive dispersions, demands, quantities and numbers of blocks, all random losses of components that are mapped to the loss functions of their own name, Monte Carlo and Latin hypercube sampling with jitter, without a correlation of costs and times", "why_tests_cant": "a distribution and independence are claims about all draws; tests compare a few samples with tolerances", "anchors": ["pelicun/model/loss_model.py:RepairModel_LF.calculate", "pelicun/model/loss_model.py:RepairModel_LF._create_DV_RVs", "pelicun/model/loss_model.py:RepairModel_LF._calc_median_consequence", "pelicun/uq.py:RandomVariableRegistry.generate_sample"]}
{"id": "C122", "title": "Correlated variables and demands have the joint distribution asked for", "statement": "In each realization, the variables of a correlated set have the joint distribution of the Gaussian copula with the correlation matrix given by the user, entry by entry for the variables in the order in which the user lists them, and with the distributions of the variables: the probability that they are at most given values is the probability that standard normal variables with that correlation matrix are at most the normal quantiles of the values of the cumulative distribution functions. The distribution of each variable is not changed by the correlation. Normal variables have a joint normal distribution with their means, standard deviations and the given correlations, and so do the logarithms of lognormal variables. The same holds for the sampled demands that are named in the correlation matrix of a demand model.", "quantifier": "all registries with disjoint correlated sets of variables without anchors, all families and parameters, all positive semidefinite correlation matrices, all sets of variables, values and realizations, all demand models with a correlation matrix, Monte Carlo and Latin hypercube sampling with jitter", "why_tests_cant": "a joint distribution is a claim about all draws; tests compare correlations of a few samples with tolerances", "anchors": ["pelicun/uq.py:RandomVariableSet.apply_correlation", "pelicun/uq.py:RandomVariableRegistry.generate_sample", "pelicun/model/demand_model.py:DemandModel._create_RVs", "pelicun/model/demand_model.py:DemandModel.generate_sample"]}
{"id": "C123", "title": "Residual drifts added to a demand sample belong to its peak drifts and change nothing else", "statement": "After estimate_RID_and_adjust_sample the sample has all the demands it had, with their values and units, and for every peak drift one residual drift at the same location and direction, without unit, estimated from that peak drift with the given yield drift; nothing else. No residual drift is negative or larger than its peak drift. The call is refused if there is no sample, there are no peak drifts, the method is not known or there is no yield drift, and only then.", "quantifier": "all samples with any demands, values, missing values and units, all tables of units, yield drifts and method names, all draws", "why_tests_cant": "tests use one sample with drifts in one unit and look at a few columns of the result", "anchors": ["pelicun/model/demand_model.py:DemandModel.estimate_RID_and_adjust_sample", "pelicun/model/demand_model.py:DemandModel.estimate_RID", "pelicun/model/demand_model.py:DemandModel.save_sample", "pelicun/model/demand_model.py:DemandModel.load_sample"]}
{"id": "C124", "title": "Correlated repair costs and times have the joint distribution asked for", "statement": "If a correlation of repair costs and times is given, then in each realization the cost and the time of a damaged quantity have the joint distribution of the Gaussian copula with that correlation and the distributions of the consequence database; pairs of different damaged quantities are independent; and the correlation does not change the distribution of any single loss.", "quantifier": "all consequence databases, damaged quantities, damage samples, loss maps and correlations between -1 and 1, both sampling methods, any number of damaged quantities and thresholds, all random number generators with independent uniform numbers and permutations", "why_tests_cant": "tests compare one sample with stored values; no test can settle a probability", "anchors": ["pelicun/model/loss_model.py:RepairModel_DS._create_DV_RVs", "pelicun/model/loss_model.py:RepairModel_DS.calculate", "pelicun/uq.py:RandomVariableSet.apply_correlation", "pelicun/uq.py:RandomVariableRegistry.generate_sample"]}
{"id": "C125", "title": "With a seed, every result is repeatable, and the samples of different steps are independent", "statement": "All steps of an assessment that sample random variables take their numbers from one generator. What follows after a seed is set does not depend on anything that was done before; later steps do not change the samples of earlier ones; and the samples of later steps do not depend on the distributions in earlier steps, only on how many variables and realizations were sampled. As long as the seed is not set again, variables of different steps (such as demands, quantities, capacities and consequences) that are not members of correlated sets are independent and have their distributions; if it is set again, the same sample is drawn again.", "quantifier": "all generators, seeds, sequences of steps, registries, sample sizes and methods; for independence all generators whose calls return independent uniform numbers and permutations, any number of variables, steps, realizations and thresholds", "why_tests_cant": "tests run one sequence of steps with one seed; independence over all steps is a statement about probabilities", "anchors": ["pelicun/base.py:Options.seed", "pelicun/base.py:Options.rng", "pelicun/uq.py:RandomVariableRegistry.generate_sample", "pelicun/model/demand_model.py:DemandModel.generate_sample", "pelicun/model/demand_model.py:DemandModel.estimate_RID", "pelicun/model/asset_model.py:AssetModel.generate_cmp_sample", "pelicun/model/damage_model.py:DamageModel_DS._create_dmg_RVs", "pelicun/model/loss_model.py:RepairModel_DS._create_DV_RVs"]}
{"id": "C126", "title": "Damage in one call: demands are completed in order, damage belongs to this call, failed calls keep the old damage", "statement": "calculate_damage generates the demands, adds one residual drift per peak drift if that is configured, then the additional demand with the given label, location, direction, value and unit if that is configured, and nothing else. Configurations have the documented keys and defaults. The components are located with the number of stories of the same call, and the damage is that of the demand sample left by the call and of the damage parameters given to the call. If the call fails, the damage sample is that of before.", "quantifier": "all demand samples, configurations with any keys present, numbers of stories, sources of damage parameters and earlier calls, and all results or failures of the demand, asset and damage models", "why_tests_cant": "tests run the call once on a fresh assessment with one configuration", "anchors": ["pelicun/assessment.py:Assessment.calculate_damage", "pelicun/model/demand_model.py:DemandModel.estimate_RID_and_adjust_sample", "pelicun/model/demand_model.py:DemandModel.expand_sample", "pelicun/model/damage_model.py:DamageModel.load_model_parameters"]}
{"id": "C127", "title": "Losses in one call belong to the arguments of the call, and the aggregated losses are their totals", "statement": "calculate_loss calculates losses for the decision variables, the loss map and the loss parameters given to the call; the same call made again gives the calculation the same parameters. aggregate_loss then returns two tables, of which the first has the total of every decision variable of the call that has losses, in its unit, and no other columns. A call that fails before the calculation leaves the losses and parameters as they are, and what is reported of them.", "quantifier": "all decision variables, loss maps, policies, sources of parameters with any units, states of the assessment, numbers of repetitions, and all results or failures of the loss calculation", "why_tests_cant": "tests make the calls once on a fresh assessment; the effect of repetition depends on the units", "anchors": ["pelicun/assessment.py:Assessment.calculate_loss", "pelicun/assessment.py:Assessment.aggregate_loss", "pelicun/model/loss_model.py:LossModel.add_loss_map", "pelicun/model/loss_model.py:LossModel.load_model_parameters", "pelicun/model/loss_model.py:LossModel.aggregate_losses"]}
{"id": "C128", "title": "A new assessment has the options of the user, the documented defaults for everything else, and all units", "statement": "Every option of a new assessment, and every entry of an option that is a dictionary, is the one of the configuration if it has one, and the documented default otherwise. Every configuration is accepted unless it has a dictionary where the default is a plain value or the other way round. Entries anywhere else have no effect. The configuration that is passed in is not changed, and another assessment with it has the same options. Default units are always known; those in the unit file of the user overwrite them.", "quantifier": "all configurations, nested to any depth, and all unit files", "why_tests_cant": "all combinations of given and missing options", "anchors": ["pelicun/base.py:Options.__init__", "pelicun/base.py:load_default_options", "pelicun/base.py:merge_default_config", "pelicun/base.py:parse_units", "pelicun/assessment.py:AssessmentBase.__init__", "pelicun/settings/default_config.json"]}
{"id": "C129", "title": "A regional simulation gives every building its own components", "statement": "When the buildings of a chunk are assessed together, every building has exactly the components that the mapping names for it, in the quantities, units and directions named there, whatever the other buildings of the chunk are, so that the size of the chunks does not matter. Several rows of a building for the same component add up. Chunks of buildings with readable entries are accepted.", "quantifier": "all chunks of buildings and all tables of components that a mapping makes for them", "why_tests_cant": "all combinations of buildings that share components", "anchors": ["pelicun/tools/regional_sim.py:process_buildings_chunk", "pelicun/tools/regional_sim.py:unique_list", "pelicun/model/asset_model.py:AssetModel.load_cmp_model"]}
{"id": "C130", "title": "Data and metadata of a built-in model belong together and come from the model library", "statement": "For a method and a type of model, the data that an assessment returns are those of the table of this type in the folder of the method, and the metadata those of the JSON file beside it. Whatever is asked for, both come from files of the same name directly in one folder of the library, or both are refused with the same error. A method that is not in the library is refused. Every legacy name stands for a file of its method.", "quantifier": "all names of methods and types of models, and all contents of the library", "why_tests_cant": "all strings as names", "anchors": ["pelicun/assessment.py:AssessmentBase.get_default_data", "pelicun/assessment.py:AssessmentBase.get_default_metadata", "pelicun/file_io.py:substitute_default_path"]}
{"id": "C131", "title": "A regional simulation reports the decision variables that the buildings ask for", "statement": "For every building, repair costs are reported if its mapping asks for costs, and repair times if it asks for times; decision variables that are not asked for are not reported. What a building has in the results does not depend on what other buildings ask for.", "quantifier": "all chunks of buildings, all requests of their mappings, all damage samples and consequence databases", "why_tests_cant": "all combinations of requests in a chunk", "anchors": ["pelicun/tools/regional_sim.py:process_buildings_chunk", "pelicun/tools/regional_sim.py:_calculate_losses_general", "pelicun/tools/regional_sim.py:_calculate_losses_hazus_eq"]}
{"id": "C132", "title": "A regional simulation uses complete hazard data", "statement": "The hazard data are accepted exactly if the configuration names intensity measures, there are grid points, and the file of every grid point exists and has all these intensity measures. The value of an intensity measure at a grid point in a realization is the one in that row of its file. Every realization that is used has a value of every intensity measure at every grid point.", "quantifier": "all configurations, all numbers of samples, all lists of grid point files with any columns and any numbers of rows", "why_tests_cant": "all combinations of columns and lengths of the files", "anchors": ["pelicun/tools/regional_sim.py:regional_sim", "pelicun/tools/regional_sim.py:process_buildings_chunk"]}
