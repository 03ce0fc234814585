{
"C01": {
"status": "proved",
"note": "size_t is BitVec 64; sizes up to 64 as asserted by the code; other sizes and slices are shown to be outside the contract."
},
"C02": {
"status": "proved",
"note": "bits are Bool (valid bit vectors only)."
},
"C03": {
"status": "proved",
"note": "for every total quotient and draws such that a draw is below n/n, which covers IEEE doubles and draws in [0,1)."
},
"C04": {
"status": "proved",
"note": "strings and streams are lists of characters."
},
"C05": {
"status": "proved",
"note": "includes the witness that repeated indices pass the validity check."
},
"C06": {
"status": "proved",
"note": ""
},
"C07": {
"status": "proved",
"note": "values in an arbitrary linear order (no NaN); deterministic function; evaluation trace is ghost state."
},
"C08": {
"status": "proved",
"note": ""
},
"C09": {
"status": "proved",
"note": ""
},
"C10": {
"status": "proved",
"note": ""
},
"C100": {
"status": "proved",
"note": ""
},
"C101": {
"status": "proved",
"note": ""
},
"C102": {
"status": "proved",
"note": ""
},
"C103": {
"status": "proved",
"note": ""
},
"C104": {
"status": "proved",
"note": ""
},
"C105": {
"status": "proved",
"note": ""
},
"C106": {
"status": "proved",
"note": ""
},
"C107": {
"status": "proved",
"note": ""
},
"C108": {
"status": "proved",
"note": "With eleven wrong rules, which are listed, and proved to be wrong."
},
"C109": {
"status": "proved",
"note": ""
},
"C11": {
"status": "proved",
"note": "positive dimensions."
},
"C110": {
"status": "proved",
"note": ""
},
"C111": {
"status": "proved",
"note": ""
},
"C112": {
"status": "proved",
"note": ""
},
"C113": {
"status": "proved",
"note": ""
},
"C114": {
"status": "proved",
"note": ""
},
"C115": {
"status": "proved",
"note": ""
},
"C116": {
"status": "proved",
"note": ""
},
"C117": {
"status": "proved",
"note": ""
},
"C118": {
"status": "proved",
"note": ""
},
"C119": {
"status": "proved",
"note": ""
},
"C12": {
"status": "proved",
"note": "sizes n > 0; indices are natural numbers."
},
"C120": {
"status": "proved",
"note": ""
},
"C121": {
"status": "proved",
"note": ""
},
"C122": {
"status": "proved",
"note": ""
},
"C123": {
"status": "proved",
"note": ""
},
"C124": {
"status": "proved",
"note": ""
},
"C125": {
"status": "proved",
"note": ""
},
"C126": {
"status": "proved",
"note": ""
},
"C127": {
"status": "proved",
"note": ""
},
"C13": {
"status": "proved",
"note": "sizes n > 0; whatever the previous contents of the second argument."
},
"C14": {
"status": "proved",
"note": "positive dimensions (required by the validity assertion)."
},
"C15": {
"status": "proved",
"note": ""
},
"C16": {
"status": "proved",
"note": ""
},
"C17": {
"status": "proved",
"note": "randomness is an arbitrary list of draws; includes the negative results for a zero count and for a non-empty initial sequence."
},
"C18": {
"status": "proved",
"note": ""
},
"C19": {
"status": "proved",
"note": ""
},
"C20": {
"status": "proved",
"note": "includes the witness that the surjectivity test is wrong when a position is repeated."
},
"C21": {
"status": "proved",
"note": "the buffer of the composition is explicit; values in an arbitrary order."
},
"C22": {
"status": "proved",
"note": "deterministic wrapped function; the hash table is the list of its entries."
},
"C23": {
"status": "proved",
"note": "histories with caught exceptions; counters do not overflow."
},
"C24": {
"status": "proved",
"note": "the defect of incremental evaluation is a separate theorem with a witness."
},
"C25": {
"status": "proved",
"note": "the defect of incremental evaluation is a separate theorem with a witness."
},
"C26": {
"status": "proved",
"note": ""
},
"C27": {
"status": "proved",
"note": ""
},
"C28": {
"status": "proved",
"note": ""
},
"C29": {
"status": "proved",
"note": ""
},
"C30": {
"status": "proved",
"note": ""
},
"C31": {
"status": "proved",
"note": ""
},
"C32": {
"status": "proved",
"note": ""
},
"C33": {
"status": "proved",
"note": ""
},
"C34": {
"status": "proved",
"note": ""
},
"C35": {
"status": "proved",
"note": ""
},
"C36": {
"status": "proved",
"note": ""
},
"C37": {
"status": "proved",
"note": ""
},
"C38": {
"status": "proved",
"note": ""
},
"C39": {
"status": "proved",
"note": ""
},
"C40": {
"status": "proved",
"note": ""
},
"C41": {
"status": "proved",
"note": ""
},
"C42": {
"status": "proved",
"note": ""
},
"C43": {
"status": "proved",
"note": ""
},
"C44": {
"status": "proved",
"note": ""
},
"C45": {
"status": "proved",
"note": ""
},
"C46": {
"status": "proved",
"note": ""
},
"C47": {
"status": "proved",
"note": ""
},
"C48": {
"status": "partial",
"note": "Proved for all rounds of a pass but the last; for the last round the claim is false of the code, see tournament_last_round_any."
},
"C49": {
"status": "proved",
"note": ""
},
"C50": {
"status": "proved",
"note": ""
},
"C51": {
"status": "proved",
"note": ""
},
"C52": {
"status": "proved",
"note": "The implementation never moves the probability vector: proved, with the intended step as specification."
},
"C53": {
"status": "proved",
"note": "Also refutes that the loop stays in range."
},
"C54": {
"status": "partial",
"note": "Proved for iterations from a state in which the value is initialised; the code never initialises it, see randomWalk_incremental_reads_uninitialized."
},
"C55": {
"status": "proved",
"note": ""
},
"C56": {
"status": "proved",
"note": ""
},
"C57": {
"status": "proved",
"note": "iterations of the parallel loop are atomic and function objects share no state; stacks of controllers without cache (see C63)."
},
"C58": {
"status": "proved",
"note": ""
},
"C59": {
"status": "proved",
"note": ""
},
"C60": {
"status": "proved",
"note": ""
},
"C61": {
"status": "proved",
"note": "strings of fewer than 2^32 characters and a delimiter that is not empty; the other cases do not end (negative theorems)."
},
"C62": {
"status": "proved",
"note": ""
},
"C63": {
"status": "proved",
"note": "negative result."
},
"C64": {
"status": "proved",
"note": ""
},
"C65": {
"status": "proved",
"note": ""
},
"C66": {
"status": "proved",
"note": ""
},
"C67": {
"status": "proved",
"note": ""
},
"C68": {
"status": "proved",
"note": ""
},
"C69": {
"status": "proved",
"note": "std::stod is a parameter; texts of fewer than 2^32 characters."
},
"C70": {
"status": "proved",
"note": ""
},
"C71": {
"status": "proved",
"note": ""
},
"C72": {
"status": "proved",
"note": ""
},
"C73": {
"status": "proved",
"note": ""
},
"C74": {
"status": "proved",
"note": ""
},
"C75": {
"status": "proved",
"note": ""
},
"C76": {
"status": "proved",
"note": ""
},
"C77": {
"status": "proved",
"note": ""
},
"C78": {
"status": "proved",
"note": ""
},
"C79": {
"status": "proved",
"note": ""
},
"C80": {
"status": "proved",
"note": ""
},
"C81": {
"status": "proved",
"note": ""
},
"C82": {
"status": "proved",
"note": ""
},
"C83": {
"status": "proved",
"note": ""
},
"C84": {
"status": "proved",
"note": ""
},
"C85": {
"status": "partial",
"note": "Proved for all algorithms of the library but the (1+(lambda, lambda)) genetic algorithm, for which makeAlgorithm_lambda_partial excludes undefined behaviour and compares with the crossovers only (the full claim is false of the code)."
},
"C86": {
"status": "proved",
"note": ""
},
"C87": {
"status": "proved",
"note": ""
},
"C88": {
"status": "proved",
"note": ""
},
"C89": {
"status": "proved",
"note": ""
},
"C90": {
"status": "proved",
"note": ""
},
"C91": {
"status": "proved",
"note": ""
},
"C92": {
"status": "proved",
"note": ""
},
"C93": {
"status": "proved",
"note": ""
},
"C94": {
"status": "proved",
"note": ""
},
"C95": {
"status": "proved",
"note": ""
},
"C96": {
"status": "proved",
"note": ""
},
"C97": {
"status": "proved",
"note": ""
},
"C98": {
"status": "proved",
"note": ""
},
"C99": {
"status": "proved",
"note": ""
}
}