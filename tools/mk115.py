import json
r={"mods":["Verif.NN.PropsTrials","Verif.NN.PropsTrials2"],"props":[["C115","Repeated trials of an experiment",
"The experiment program keeps a copy of the network, trains and scores the network, sets it back to the copy, draws weights anew and goes on with the next trial. For every network and data set, all clocks and all results of rand(), all trials are carried out and reported with accuracies between 0 and 1, and every trial starts from a network whose weights owe nothing to the training before.",
"all networks, data sets, numbers of trials and iterations, clocks and random sequences",
"all random sequences and histories: a test sees single results of rand().",
["test/model_test.cpp: main, train, evaluate","src/neuralnet.cpp: operator=, randomize","src/layer/layer.cpp: randominit"]]],
"notes":{"C115":["partial","C115_trials: all trials run and report. C115_restart: the exact state after setting back. Missing because false: that trials start from untrained networks. The copy shares its hidden layers with the network and randomize() picks layers at random, so trained weights can remain in all hidden layers, and lowered learning rates always do (C115_untrained_refuted). Conversely, when all hidden layers are picked the drawn weights are always the same ones, so that the trials repeat each other exactly (C115_repeats). The program calls randomize without an argument, which the current API does not have; the model has the argument."]},
"design":"(C115) the restart by an invariant of the loop of randomize calls; training keeps configuration, sizes and (without decay) settings; runs from equal weights are related through the plain training history of C114; the trials by a loop invariant."}
json.dump(r,open('/tmp/gen/r115.json','w'))
